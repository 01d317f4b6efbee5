import Verif.Base.Spec
import Verif.Base.Model
import Verif.Py

/-! C35: filters and the fallback of the standard handlers. -/

namespace Polog
open BaseSpec

variable {L C E : Type}

theorem toDo_true {h : BaseH L C E} {log : L} (hw : Wanted h log) : h.toDo log = .ok true := by
  obtain ⟨h1, h2⟩ := hw
  unfold BaseH.toDo
  rw [if_neg (by rcases h1 with h1 | h1 <;> simp [h1])]
  cases hf : h.filter with
  | none => rfl
  | some f => simp only [h2 f hf]

theorem toDo_false {h : BaseH L C E} {log : L} (hf : FilterWorks h log) (hw : ¬ Wanted h log) :
    h.toDo log = .ok false := by
  unfold BaseH.toDo
  split
  · rfl
  · rename_i hs
    cases hff : h.filter with
    | none =>
      refine absurd ⟨?_, fun f h => by rw [hff] at h; cases h⟩ hw
      cases ho : h.onlyErrors <;> simp [ho] at hs ⊢
      cases hsu : h.success log <;> simp_all
    | some f =>
      obtain ⟨b, hb⟩ := hf f hff
      simp only [hb]
      cases b with
      | false => rfl
      | true =>
        refine absurd ⟨?_, fun g h => by rw [hff] at h; cases h; exact hb⟩ hw
        cases ho : h.onlyErrors <;> simp [ho] at hs ⊢
        cases hsu : h.success log <;> simp_all

/-- **C35**: a log that is wanted and can be written is written, and `alt` is not called. -/
theorem C35_wanted_log_is_written (h : BaseH L C E) (alt : Option (L → Act E)) (log : L) (es : List E)
    (hw : Wanted h log) (ho : Writes h log es) : h.call alt log = ⟨es, false⟩ := by
  obtain ⟨c, hc, he, hr⟩ := ho
  simp only [BaseH.call, toDo_true hw, BaseH.attempt, hc, hr, Bool.false_eq_true, if_false]
  cases hq : h.write c
  simp_all

/-- **C35**: a log that is wanted and cannot be written goes to `alt` once; without `alt` nothing more
happens and nothing is raised. -/
theorem C35_failed_write_goes_to_alt (h : BaseH L C E) (alt : Option (L → Act E)) (log : L) (es : List E)
    (hw : Wanted h log) (ho : FailsToWrite h log es) :
    (alt = none → h.call alt log = ⟨es, false⟩) ∧
    (∀ f, alt = some f → h.call alt log = ⟨es ++ (f log).events, (f log).raised⟩) := by
  have ha : h.attempt log = ⟨es, true⟩ := by
    rcases ho with ⟨hc, rfl⟩ | ⟨c, hc, he, hr⟩
    · simp [BaseH.attempt, hc]
    · simp only [BaseH.attempt, hc]
      cases hq : h.write c
      simp_all
  refine ⟨?_, ?_⟩ <;> intros <;> subst_vars <;>
    simp [BaseH.call, toDo_true hw, ha, runAlt]

/-- **C35**: a log that is not wanted is not touched by the handler and goes to `alt` once. Missing
from the full property: filters that raise or answer with something that is not a bool
(`C35_raising_filter_goes_to_alt_fails`, `C35_filter_must_return_true_fails`). -/
theorem C35_unwanted_log_goes_to_alt_partial (h : BaseH L C E) (alt : Option (L → Act E)) (log : L)
    (hf : FilterWorks h log) (hw : ¬ Wanted h log) :
    (alt = none → h.call alt log = ⟨[], false⟩) ∧
    (∀ f, alt = some f → h.call alt log = f log) := by
  refine ⟨?_, ?_⟩ <;> intros <;> subst_vars <;> simp [BaseH.call, toDo_false hf hw, runAlt]

/-- **C35** for chains `h1(alt=h2(alt=...))`: the log is written by the first handler of the chain that
wants it and succeeds; the handlers after it do nothing at all, and nothing is raised. -/
theorem C35_chain_first_able_handler_writes (pre post : List (BaseH L C E)) (h : BaseH L C E) (log : L)
    (es : List E)
    (hpre : ∀ g ∈ pre, FilterWorks g log ∧ (¬ Wanted g log ∨ FailsToWrite g log []))
    (hw : Wanted h log) (ho : Writes h log es) :
    runAlt (chainCall (pre ++ h :: post)) log = ⟨es, false⟩ := by
  induction pre with
  | nil => exact C35_wanted_log_is_written h _ log es hw ho
  | cons g pre ih =>
    have ih := ih (fun g' hg' => hpre g' (List.mem_cons_of_mem _ hg'))
    obtain ⟨hfg, hg⟩ := hpre g List.mem_cons_self
    have hne : ∃ f, chainCall (pre ++ h :: post) = some f := by cases pre <;> exact ⟨_, rfl⟩
    obtain ⟨f, hf⟩ := hne
    rw [hf] at ih
    show g.call (chainCall (pre ++ h :: post)) log = _
    rw [hf]
    by_cases hwg : Wanted g log
    · have hfail := hg.resolve_left (fun hn => hn hwg)
      rw [(C35_failed_write_goes_to_alt g (some f) log [] hwg hfail).2 f rfl]
      have : f log = ⟨es, false⟩ := ih
      rw [this]; rfl
    · rw [(C35_unwanted_log_goes_to_alt_partial g (some f) log hfg hwg).2 f rfl]
      exact ih

/-- **C35** for chains: if no handler of the chain both wants the log and succeeds, nothing is raised. -/
theorem C35_chain_never_raises (hs : List (BaseH L C E)) (log : L)
    (hf : ∀ g ∈ hs, FilterWorks g log) : (runAlt (chainCall hs) log).raised = false := by
  induction hs with
  | nil => rfl
  | cons g hs ih =>
    have ih := ih (fun g' hg' => hf g' (List.mem_cons_of_mem _ hg'))
    show (g.call (chainCall hs) log).raised = false
    unfold BaseH.call
    by_cases hwg : Wanted g log
    · rw [toDo_true hwg]
      dsimp only
      split
      · exact ih
      · simp_all
    · rw [toDo_false (hf g List.mem_cons_self) hwg]
      exact ih

/-- A handler which writes its logs (numbers; failed iff negative) and whose filter takes small ones. -/
def exHandler : BaseH Int Int Int :=
  ⟨true, some (fun n => .ok (some (n > -10))), fun n => some (n ≥ 0), fun n => .ok n,
    fun n => ⟨[n], n == -3⟩⟩

-- wanted and written, wanted and failing, unwanted
example : Wanted exHandler (-2) ∧ Writes exHandler (-2) [-2] ∧
    Wanted exHandler (-3) ∧ FailsToWrite exHandler (-3) [-3] ∧
    FilterWorks exHandler (-20) ∧ ¬ Wanted exHandler (-20) ∧ ¬ Wanted exHandler 5 := by
  refine ⟨⟨.inr rfl, fun f hf => by cases hf; rfl⟩, ⟨-2, rfl, rfl, rfl⟩,
    ⟨.inr rfl, fun f hf => by cases hf; rfl⟩, .inr ⟨-3, rfl, rfl, rfl⟩,
    fun f hf => by cases hf; exact ⟨_, rfl⟩, fun h => ?_, fun h => ?_⟩
  · exact absurd (h.2 _ rfl) (by decide)
  · exact absurd h.1 (by decide)

/-- A chain of handlers: the first does not want the log, the second cannot make a text of it, the third writes it
(`C35_chain_first_able_handler_writes`). -/
example : let pre : List (BaseH Int Int Int) := [⟨false, some fun _ => .ok (some false), fun _ => some true, fun n => .ok n, fun n => ⟨[n], false⟩⟩,
      ⟨false, none, fun _ => some true, fun _ => .error (), fun n => ⟨[n], false⟩⟩]
    (∀ g ∈ pre, FilterWorks g (-2) ∧ (¬ Wanted g (-2) ∨ FailsToWrite g (-2) [])) ∧ Wanted exHandler (-2) ∧ Writes exHandler (-2) [-2] ∧
    runAlt (chainCall (pre ++ exHandler :: [])) (-2) = ⟨[-2], false⟩ := by
  refine ⟨?_, ⟨.inr rfl, fun f hf => by cases hf; rfl⟩, ⟨-2, rfl, rfl, rfl⟩, by decide +kernel⟩
  intro g hg
  simp only [List.mem_cons, List.not_mem_nil, or_false] at hg
  rcases hg with rfl | rfl
  · exact ⟨fun f hf => by cases hf; exact ⟨_, rfl⟩, .inl fun h => absurd (h.2 _ rfl) (by decide)⟩
  · exact ⟨fun f hf => (nomatch hf), .inr (.inl ⟨rfl, rfl⟩)⟩

/-- **C35** fails for filters that raise: `alt` is not called and the exception leaves the handler. -/
theorem C35_raising_filter_goes_to_alt_fails :
    ¬ ∀ (h : BaseH Nat Nat Nat) (f : Nat → Act Nat) (log : Nat), ¬ Wanted h log →
      h.call (some f) log = f log :=
  fun H => absurd (H ⟨false, some (fun _ => .error ()), fun _ => none, fun n => .ok n, fun n => ⟨[n], false⟩⟩
    (fun n => ⟨[n], false⟩) 0 (fun h => absurd (h.2 _ rfl) (by decide))) (by decide)

/-- **C35** fails for filters that answer with something that is not a bool, such as `None` or `0`:
the log is written. -/
theorem C35_filter_must_return_true_fails :
    ¬ ∀ (h : BaseH Nat Nat Nat) (log : Nat) (b : Except Unit (Option Bool)) (f : Nat → Except Unit (Option Bool)),
      h.filter = some f → f log = b → b = .ok none → (h.call none log).events = [] :=
  fun H => absurd (H ⟨false, some (fun _ => .ok none), fun _ => none, fun n => .ok n, fun n => ⟨[n], false⟩⟩
    0 _ _ rfl rfl rfl) (by decide)

end Polog
