import Verif.EndToEnd.Props
import Verif.File.CrashProps

/-! C74 for whole programs: what is in the file when the program is stopped at any moment. -/

namespace Polog
open CallSpec WaySpec FileSpec CrashSpec

/-- **C74** for programs: a program logs to a file and is stopped at any moment, when it has called the handler for some of its
records (`s.calls`, a beginning of all the lines of the program). Then the disk holds what was there before, whole lines for the
first events to be recorded, and possibly a beginning of the line of the next one; only if the handler was at work on that one when
the program was stopped, is it missing.

Partial: the same programs as in C73. -/
theorem C74_stopped_program_loses_at_most_one_event_partial (env : WayEnv) (b : Body) (hv : Valid env.c b)
    (hu : UnlogFlat env.c false b) (hm : MsgSafe env.c false false b) (hp : ∀ v, (env.view v).text ≠ none)
    (c : CrConf) (hf : c.forced = true) (s₀ s : CrState) (hs : CrStart s₀) (h : CrRun c s₀ s) (hstop : s.stops = 0)
    (halt : s.alt = []) (hcalls : s.calls <+: env.lines b) :
    ∃ lines p, onDisk c.fn s = content s₀.w c.fn ++ lines.flatten ++ p ∧
      List.Forall₂ (LineFor env) ((toRecord env.c [] (events env.c false b)).take lines.length) lines ∧
      lines.length + (if inWork s then 1 else 0) = s.calls.length ∧
      (¬ inWork s → p = []) ∧
      (inWork s → ∃ ev line, (toRecord env.c [] (events env.c false b))[lines.length]? = some ev ∧ LineFor env ev line ∧
        p <+: line) := by
  have hall : List.Forall₂ (LineFor env) (toRecord env.c [] (events env.c false b)) (env.lines b) :=
    lines_for env hp (C28_record_has_the_last_own_message_partial env.c b hv hu hm)
      (run_recsWF env.c b .init (fun r h => nomatch h))
  obtain ⟨rest, hrest⟩ := hcalls
  obtain ⟨h1, h2⟩ := C74_finished_records_are_on_the_disk c hf s₀ s hs h hstop halt
  by_cases hw : inWork s
  · obtain ⟨fin, line, p, h3, h4, h5⟩ := h2 hw
    have hlines : env.lines b = fin ++ line :: rest := by rw [← hrest, h3]; simp
    refine ⟨fin, p, h5, ?_, by rw [if_pos hw, h3]; simp, fun h => absurd hw h, fun _ => ?_⟩
    · have := List.forall₂_take fin.length hall
      rwa [hlines, List.take_left'] at this
      rfl
    · have hd := List.forall₂_drop fin.length hall
      rw [hlines, List.drop_left' rfl] at hd
      generalize hev : (toRecord env.c [] (events env.c false b)).drop fin.length = evs at hd
      cases hd with
      | @cons ev _ evs' _ he _ =>
        refine ⟨ev, line, ?_, he, h4⟩
        have : (toRecord env.c [] (events env.c false b))[fin.length]? =
            ((toRecord env.c [] (events env.c false b)).drop fin.length)[0]? := by simp
        rw [this, hev]; rfl
  · refine ⟨s.calls, [], by rw [h1 hw, List.append_nil], ?_, by rw [if_neg hw]; rfl, fun _ => rfl, fun h => absurd h hw⟩
    have := List.forall₂_take s.calls.length hall
    rwa [← hrest, List.take_left'] at this
    rfl

/-- A program can be stopped while its second line is in work. -/
theorem crExists (l₁ l₂ : Str) : ∃ s, CrRun ⟨['f'], fun _ => false, true⟩ crEmpty s ∧ s.calls = [l₁, l₂] ∧ inWork s ∧
    s.stops = 0 ∧ s.alt = [] := by
  have r1 := CrRun.init.step (CrStep.start (c := ⟨['f'], fun _ => false, true⟩) crEmpty rfl)
  have r2 := r1.step (.call _ l₁ rfl)
  have r3 := r2.step (.pass _ l₁ rfl (fun _ _ => rfl))
  have r4 := r3.step (.write _ l₁ 0 _ rfl rfl)
  have r5 := r4.step (.flush _ l₁ _ rfl rfl rfl)
  have r6 := r5.step (.call _ l₂ rfl)
  exact ⟨_, r6, rfl, ⟨(fun h => nomatch h), (fun h => nomatch h)⟩, rfl, rfl⟩

example : ∃ s, Valid wayExample.c cProg ∧ UnlogFlat wayExample.c false cProg ∧ MsgSafe wayExample.c false false cProg ∧
    (∀ v, (wayExample.view v).text ≠ none) ∧ CrStart crEmpty ∧ CrRun ⟨['f'], fun _ => false, true⟩ crEmpty s ∧ inWork s ∧
    s.stops = 0 ∧ s.alt = [] ∧ s.calls <+: wayExample.lines cProg := by
  obtain ⟨l₁, l₂, hl⟩ : ∃ l₁ l₂, wayExample.lines cProg = [l₁, l₂] :=
    ⟨_, _, (by decide +kernel : wayExample.lines cProg =
    ["[12:00] |    5     |  ERROR  |  AUTO  | where: m.inner() | 12:00 | exception: ValueError(\"bad\") | [] | local_variables: \"\" | user: \"root\"\n".toList,
     "[12:00] |    9     | SUCCESS |  AUTO  | \"hello\" | where: m.outer() | 12:00 | result: 7 (<class 'str'>) | user: \"root\"\n".toList])⟩
  obtain ⟨s, h1, h2, h3, h4, h5⟩ := crExists l₁ l₂
  exact ⟨s, cProg_valid, cProg_flat, cProg_safe, (fun v h => nomatch h), crEmpty_start, h1, h3, h4, h5,
    by rw [h2, hl]; exact List.prefix_refl _⟩

end Polog
