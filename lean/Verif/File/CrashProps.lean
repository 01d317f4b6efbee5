import Verif.File.CrashSpec
import Verif.File.Lemmas

/-! C74: what is lost when the program is stopped at any moment. -/

namespace Polog
open FileSpec CrashSpec

theorem onDisk_congr {fn : Str} {s s' : CrState} (hr : s'.rotated = s.rotated)
    (h : ∀ r, r = fn ∨ r ∈ s.rotated → content s'.w r = content s.w r) : onDisk fn s' = onDisk fn s := by
  unfold onDisk
  rw [hr, h fn (.inl rfl)]
  congr 2
  exact List.map_congr_left fun r h' => h r (.inr h')

theorem damaged_append {k l k' l' : List Str} (h : k.length = l.length) :
    damaged (k ++ k') (l ++ l') = damaged k l + damaged k' l' := by
  induction k generalizing l with
  | nil =>
    cases l with
    | nil => simp [damaged]
    | cons _ _ => cases h
  | cons a k ih =>
    cases l with
    | nil => cases h
    | cons b l =>
      have := ih (Nat.succ.inj h)
      simp only [List.cons_append, damaged, this]
      omega

/-- One more line, of which `p` was kept. -/
theorem CrashSpec.AllButFew.snoc {n : Nat} {before : Str} {lines : List Str} {text p line : Str}
    (h : AllButFew n before lines text) (hp : p <+: line) :
    AllButFew (n + if p = line then 0 else 1) before (lines ++ [line]) (text ++ p) := by
  obtain ⟨kept, h1, h2, h3⟩ := h
  refine ⟨kept ++ [p], List.rel_append h1 (.cons hp .nil), ?_, ?_⟩
  · rw [h2]; simp
  · rw [damaged_append h1.length_eq]
    have : damaged [p] [line] = if p = line then 0 else 1 := by simp [damaged]
    rw [this]; omega

theorem CrashSpec.AllButFew.mono {n m : Nat} {before : Str} {lines : List Str} {text : Str}
    (h : AllButFew n before lines text) (hm : n ≤ m) : AllButFew m before lines text := by
  obtain ⟨kept, h1, h2, h3⟩ := h
  exact ⟨kept, h1, h2, by omega⟩

/-- What the text on the disk is at each place. -/
def CrPc.Says (c : CrConf) (before : Str) (s : CrState) : CrPc → Prop
  | .off => AllButFew (s.stops + s.alt.length) before s.calls (onDisk c.fn s)
  | .idle => AllButFew (s.stops + s.alt.length) before s.calls (onDisk c.fn s)
  | .flushing line => ∃ cs p t, s.calls = cs ++ [line] ∧ p ++ s.w.buf = line ∧ onDisk c.fn s = t ++ p ∧
      AllButFew (s.stops + s.alt.length) before cs t
  | .checking line | .moving line _ | .copying line _ | .removing line _ | .closing line | .opening line
  | .writing line => ∃ cs, s.calls = cs ++ [line] ∧
      AllButFew (s.stops + s.alt.length) before cs (onDisk c.fn s)

structure CrInv (c : CrConf) (before : Str) (s : CrState) : Prop where
  distinct : ∀ p q i, s.w.files p = some i → s.w.files q = some i → p = q
  below : ∀ p i, s.w.files p = some i → i < s.w.fresh
  fd : (∀ l, s.pc ≠ .closing l) → ∀ i, s.w.file = some i → s.w.files c.fn = some i
  buf : (∀ l, s.pc ≠ .flushing l) → s.w.buf = []
  rot : ∀ r ∈ s.rotated, r ≠ c.fn ∧ s.w.files r ≠ none
  copying : ∀ l t, s.pc = .copying l t ∨ s.pc = .removing l t → t ≠ c.fn ∧ t ∉ s.rotated
  removing : ∀ l t, s.pc = .removing l t → content s.w t = content s.w c.fn ∧ s.w.files t ≠ none
  closed : (∃ l, s.pc = .opening l) ∨ s.pc = .off → s.w.file = none
  txt : s.pc.Says c before s

/-- Adding text to the current file. -/
theorem onDisk_append {c : CrConf} {before : Str} {s : CrState} (h : CrInv c before s) {i : Nat}
    (hi : s.w.files c.fn = some i) (x b : Str) (pc : CrPc) (calls alt : List Str) (n : Nat) :
    onDisk c.fn { s with w := { s.w with data := putAt s.w.data i (s.w.data i ++ x), buf := b },
                         pc := pc, calls := calls, alt := alt, stops := n } = onDisk c.fn s ++ x := by
  unfold onDisk
  rw [List.append_assoc]
  congr 1
  · congr 1
    refine List.map_congr_left fun r hr => ?_
    unfold content
    cases hf : s.w.files r with
    | none => simp only [hf]
    | some j =>
      have hne : j ≠ i := fun e => (h.rot r hr).1 (h.distinct _ _ _ (e ▸ hf) hi)
      simp only [hf]
      exact putAt_ne _ _ hne
  · rw [content_some hi, content_some (w := { s.w with data := _, buf := b }) hi]
    exact putAt_same _ _ _

/-- Opening the file of the log. -/
theorem onDisk_open {c : CrConf} {before : Str} {s : CrState} (h : CrInv c before s) (ok : Bool) (pc : CrPc) :
    onDisk c.fn { s with w := s.w.open c.fn ok, pc := pc } = onDisk c.fn s := by
  refine onDisk_congr rfl fun r hr => ?_
  unfold FileW.open
  cases ok with
  | false => rfl
  | true =>
    simp only [if_true]
    cases hf : s.w.files c.fn with
    | some i => rfl
    | none =>
      rcases hr with rfl | hr
      · rw [content_none hf]
        rw [content_some (w := { s.w with files := _, data := _, fresh := _, file := _ }) (putAt_same _ _ _)]
        exact putAt_same _ _ _
      · cases hr' : s.w.files r with
        | none => exact absurd hr' (h.rot r hr).2
        | some j =>
          rw [content_some hr']
          rw [content_some (w := { s.w with files := _, data := _, fresh := _, file := _ })
            ((putAt_ne _ _ (h.rot r hr).1).trans hr')]
          exact putAt_ne _ _ (Nat.ne_of_lt (h.below _ _ hr'))

theorem CrInv.opened {c : CrConf} {before : Str} {s : CrState} (h : CrInv c before s) (ok : Bool) (pc : CrPc)
    (hfile : s.w.file = none) (hb : s.w.buf = []) (h1 : ∀ l, pc ≠ .closing l) (h2 : ∀ l t, pc ≠ .copying l t)
    (h3 : ∀ l t, pc ≠ .removing l t) (h4 : ∀ l, pc ≠ .opening l) (h5 : pc ≠ .off)
    (hsay : pc.Says c before { s with w := s.w.open c.fn ok, pc := pc }) :
    CrInv c before { s with w := s.w.open c.fn ok, pc := pc } := by
  have hw : (∀ p q i, (s.w.open c.fn ok).files p = some i → (s.w.open c.fn ok).files q = some i → p = q) ∧
      (∀ p i, (s.w.open c.fn ok).files p = some i → i < (s.w.open c.fn ok).fresh) ∧
      (∀ i, (s.w.open c.fn ok).file = some i → (s.w.open c.fn ok).files c.fn = some i) ∧
      (s.w.open c.fn ok).buf = [] ∧
      (∀ r, r ≠ c.fn → (s.w.open c.fn ok).files r = s.w.files r) := by
    have hd := h.distinct
    have hbl := h.below
    unfold FileW.open putAt
    cases ok with
    | false => exact ⟨hd, hbl, fun i hi => by simp [hfile] at hi, hb, fun _ _ => rfl⟩
    | true =>
      simp only [if_true]
      cases hf : s.w.files c.fn with
      | some i => exact ⟨hd, hbl, fun j hj => by cases hj; exact hf, hb, fun _ _ => rfl⟩
      | none =>
        refine ⟨?_, ?_, ?_, hb, fun r hr => if_neg hr⟩
        · grind
        · grind
        · grind
  obtain ⟨w1, w2, w3, w4, w5⟩ := hw
  refine ⟨w1, w2, fun _ => w3, fun _ => w4, fun r hr => ⟨(h.rot r hr).1, ?_⟩, ?_, ?_, ?_, hsay⟩
  · dsimp only; rw [w5 r (h.rot r hr).1]; exact (h.rot r hr).2
  · rintro l t (e | e)
    · exact absurd e (h2 l t)
    · exact absurd e (h3 l t)
  · intro l t e; exact absurd e (h3 l t)
  · rintro (⟨l, e⟩ | e)
    · exact absurd e (h4 l)
    · exact absurd e h5

/-- When the program stops or `do` ends early, at most the line in work is not whole. -/
theorem CrPc.Says.ends {c : CrConf} {before : Str} {s : CrState} (h : s.pc.Says c before s) :
    AllButFew (s.stops + s.alt.length + if inWork s then 1 else 0) before s.calls (onDisk c.fn s) := by
  have nil : ∀ line, (∃ cs, s.calls = cs ++ [line] ∧
      AllButFew (s.stops + s.alt.length) before cs (onDisk c.fn s)) →
      AllButFew (s.stops + s.alt.length + 1) before s.calls (onDisk c.fn s) := by
    rintro line ⟨cs, h1, h2⟩
    rw [h1]
    have := AllButFew.snoc h2 (p := []) (line := line) List.nil_prefix
    rw [List.append_nil] at this
    exact this.mono (by split <;> omega)
  cases hp : s.pc with
  | off => rw [hp] at h; exact AllButFew.mono h (by omega)
  | idle => rw [hp] at h; exact AllButFew.mono h (by omega)
  | flushing line =>
    rw [hp] at h
    have hw : inWork s := by simp [inWork, hp]
    rw [if_pos hw]
    obtain ⟨cs, p, t, h1, h2, h3, h4⟩ := h
    rw [h1, h3]
    exact (AllButFew.snoc h4 (p := p) (line := line) ⟨_, h2⟩).mono (by split <;> omega)
  | _ =>
    rw [hp] at h
    have hw : inWork s := by simp [inWork, hp]
    rw [if_pos hw]
    exact nil _ h

theorem CrInv.step {c : CrConf} (hc : c.forced = true) {before : Str} {s s' : CrState}
    (h : CrInv c before s) (hs : CrStep c s s') : CrInv c before s' := by
  have ht0 := h.txt
  have hd := h.distinct
  have hbl := h.below
  cases hs with
  | start hp =>
    refine h.opened true .idle (h.closed (.inr hp)) (h.buf (by simp [hp])) (by simp) (by simp) (by simp) (by simp)
      (by simp) ?_
    rw [hp] at ht0
    show AllButFew _ _ _ _
    rw [onDisk_open h]
    exact ht0
  | stop hp =>
    refine ⟨hd, hbl, by simp, by simp, h.rot, by simp, by simp, by simp, ?_⟩
    have he : onDisk c.fn { s with w := { s.w with file := none, buf := [] }, pc := .off, stops := s.stops + 1 } =
        onDisk c.fn s := onDisk_congr rfl fun r hr => rfl
    show AllButFew _ _ _ _
    rw [he]
    exact (CrPc.Says.ends ht0).mono (by split <;> (dsimp only; omega))
  | call line hp =>
    rw [hp] at ht0
    refine ⟨hd, hbl, fun _ => h.fd (by simp [hp]), fun _ => h.buf (by simp [hp]), h.rot, by simp, by simp, by simp, ?_⟩
    exact ⟨_, rfl, ht0⟩
  | fire line n hp _ _ =>
    rw [hp] at ht0
    exact ⟨hd, hbl, fun _ => h.fd (by simp [hp]), fun _ => h.buf (by simp [hp]), h.rot, by simp, by simp, by simp, ht0⟩
  | pass line hp _ =>
    rw [hp] at ht0
    exact ⟨hd, hbl, fun _ => h.fd (by simp [hp]), fun _ => h.buf (by simp [hp]), h.rot, by simp, by simp, by simp, ht0⟩
  | rename line target again i hp hi ht hne =>
    rw [hp] at ht0
    have hrot := h.rot
    refine ⟨?_, ?_, by simp, fun _ => h.buf (by simp [hp]), ?_, by simp, by simp, by simp, ?_⟩
    · dsimp only; unfold putAt; grind
    · dsimp only; unfold putAt; grind
    · dsimp only; unfold putAt; grind
    · obtain ⟨cs, h1, h2⟩ := ht0
      refine ⟨cs, h1, ?_⟩
      have hfn : c.fn ≠ target := fun e => hne e.symm
      have he : onDisk c.fn { s with
          w := { s.w with files := putAt (putAt s.w.files c.fn none) target (some i) },
          pc := .closing line, rotated := s.rotated ++ [target] } = onDisk c.fn s := by
        unfold onDisk
        rw [content_none (w := { s.w with files := _ }) (show putAt (putAt s.w.files c.fn none) target (some i) c.fn = none by
          rw [putAt_ne _ _ hfn, putAt_same]), List.append_nil, List.map_append, List.flatten_append, content_some hi]
        congr 1
        · congr 1
          refine List.map_congr_left fun r hr => ?_
          have hr1 := (h.rot r hr).1
          have hr2 : r ≠ target := fun e => (h.rot r hr).2 (e ▸ ht)
          unfold content
          simp only [putAt_ne _ _ hr1, putAt_ne _ _ hr2]
        · rw [List.map_singleton, List.flatten_singleton,
            content_some (w := { s.w with files := _ }) (putAt_same _ _ _)]
      exact he ▸ h2
  | copyBegins line target again hp hi ht hne =>
    rw [hp] at ht0
    have hrot := h.rot
    have hfd := h.fd (by simp [hp])
    have htr : target ∉ s.rotated := fun e => (h.rot _ e).2 ht
    refine ⟨?_, ?_, ?_, fun _ => h.buf (by simp [hp]), ?_, ?_, by simp, by simp, ?_⟩
    · dsimp only; unfold putAt; grind
    · dsimp only; unfold putAt; grind
    · intro _ i hi'; exact (putAt_ne _ _ (fun e => hne e.symm)).trans (hfd i hi')
    · dsimp only; unfold putAt; grind
    · rintro l t (e | e)
      · cases e; exact ⟨hne, htr⟩
      · cases e
    · obtain ⟨cs, h1, h2⟩ := ht0
      refine ⟨cs, h1, ?_⟩
      have he : onDisk c.fn { s with
          w := { s.w with files := putAt s.w.files target (some s.w.fresh),
                          data := putAt s.w.data s.w.fresh [], fresh := s.w.fresh + 1 }
          pc := .copying line target } = onDisk c.fn s := by
        refine onDisk_congr rfl fun r hr => ?_
        have hr2 : r ≠ target := by
          rcases hr with rfl | hr
          · exact fun e => hne e.symm
          · exact fun e => htr (e ▸ hr)
        unfold content
        simp only [putAt_ne _ _ hr2]
        cases hf : s.w.files r with
        | none => rfl
        | some j => exact putAt_ne _ _ (Nat.ne_of_lt (hbl _ _ hf))
      exact he ▸ h2
  | copyGoesOn line target i j k hp hi hj =>
    rw [hp] at ht0
    have hcp := h.copying line target (.inl hp)
    have hpc : ∀ {w : FileW}, ({ s with w := w } : CrState).pc = .copying line target := hp
    refine ⟨hd, hbl, fun _ => h.fd (by simp [hp]), fun _ => h.buf (by simp [hp]), h.rot, h.copying, ?_, ?_, ?_⟩
    · intro l t e; rw [hpc] at e; cases e
    · rintro (⟨l, e⟩ | e) <;> (rw [hpc] at e; cases e)
    · rw [hpc]
      obtain ⟨cs, h1, h2⟩ := ht0
      refine ⟨cs, h1, ?_⟩
      have he : onDisk c.fn { s with w := { s.w with data := putAt s.w.data j ((s.w.data i).take k) } } = onDisk c.fn s := by
        refine onDisk_congr rfl fun r hr => ?_
        have hr2 : r ≠ target := by
          rcases hr with rfl | hr
          · exact fun e => hcp.1 e.symm
          · exact fun e => hcp.2 (e ▸ hr)
        unfold content
        cases hf : s.w.files r with
        | none => rfl
        | some j' =>
          have : j' ≠ j := fun e => hr2 (hd _ _ _ (e ▸ hf) hj)
          exact putAt_ne _ _ this
      exact he ▸ h2
  | copyEnds line target hp hex he =>
    rw [hp] at ht0
    refine ⟨hd, hbl, fun _ => h.fd (by simp [hp]), fun _ => h.buf (by simp [hp]), h.rot, ?_, ?_, by simp, ht0⟩
    · rintro l t (e | e)
      · cases e
      · cases e; exact h.copying line target (.inl hp)
    · intro l t e
      cases e
      exact ⟨he, hex⟩
  | copyFails line target hp =>
    refine ⟨hd, hbl, fun _ => h.fd (by rcases hp with hp | hp <;> simp [hp]),
      fun _ => h.buf (by rcases hp with hp | hp <;> simp [hp]), h.rot, by simp, by simp, by simp, ?_⟩
    rcases hp with hp | hp <;> (rw [hp] at ht0; exact ht0)
  | remove line target hp =>
    rw [hp] at ht0
    have hrot := h.rot
    have hcp := h.copying line target (.inr hp)
    have hrm := h.removing line target hp
    refine ⟨?_, ?_, by simp, fun _ => h.buf (by simp [hp]), ?_, by simp, by simp, by simp, ?_⟩
    · dsimp only; unfold putAt; grind
    · dsimp only; unfold putAt; grind
    · dsimp only; unfold putAt; grind
    · obtain ⟨cs, h1, h2⟩ := ht0
      refine ⟨cs, h1, ?_⟩
      have hsame : ∀ r, r ≠ c.fn → content { s.w with files := putAt s.w.files c.fn none } r = content s.w r := by
        intro r hr
        unfold content
        simp only [putAt_ne _ _ hr]
      have he : onDisk c.fn { s with
          w := { s.w with files := putAt s.w.files c.fn none },
          pc := .closing line, rotated := s.rotated ++ [target] } = onDisk c.fn s := by
        unfold onDisk
        rw [content_none (w := { s.w with files := _ }) (putAt_same _ _ _), List.append_nil, List.map_append,
          List.flatten_append, List.map_singleton, List.flatten_singleton]
        dsimp only
        rw [hsame target hcp.1, hrm.1]
        congr 2
        exact List.map_congr_left fun r hr => hsame r (h.rot r hr).1
      exact he ▸ h2
  | notFound line hp =>
    rw [hp] at ht0
    exact ⟨hd, hbl, fun _ => h.fd (by simp [hp]), fun _ => h.buf (by simp [hp]), h.rot, by simp, by simp, by simp, ht0⟩
  | moveFails line again hp =>
    rw [hp] at ht0
    exact ⟨hd, hbl, fun _ => h.fd (by simp [hp]), fun _ => h.buf (by simp [hp]), h.rot, by simp, by simp, by simp, ht0⟩
  | close line hp =>
    rw [hp] at ht0
    have hb := h.buf (by simp [hp])
    have hw : s.w.close = { s.w with file := none } := by
      unfold FileW.close
      obtain ⟨⟨files, data, fresh, file, buf⟩, pc, calls, alt, stops, rotated⟩ := s
      cases file with
      | none => rfl
      | some i => dsimp only at hb ⊢; subst hb; simp [putAt_self]
    rw [hw]
    refine ⟨hd, hbl, by simp, fun _ => hb, h.rot, by simp, by simp, by simp, ?_⟩
    obtain ⟨cs, h1, h2⟩ := ht0
    refine ⟨cs, h1, ?_⟩
    have he : onDisk c.fn { s with w := { s.w with file := none }, pc := .opening line } = onDisk c.fn s :=
      onDisk_congr rfl fun r hr => rfl
    exact he ▸ h2
  | reopen line ok hp =>
    refine h.opened ok (.writing line) (h.closed (.inl ⟨line, hp⟩)) (h.buf (by simp [hp])) (by simp) (by simp) (by simp)
      (by simp) (by simp) ?_
    rw [hp] at ht0
    obtain ⟨cs, h1, h2⟩ := ht0
    exact ⟨cs, h1, (onDisk_open h ok (.writing line)) ▸ h2⟩
  | write line auto w' hp hw =>
    rw [hp] at ht0
    have hb := h.buf (by simp [hp])
    have hfd := h.fd (by simp [hp])
    unfold FileW.write at hw
    cases hf : s.w.file with
    | none => rw [hf] at hw; cases hw
    | some i =>
      rw [hf] at hw
      cases hw
      refine ⟨hd, hbl, fun _ j hj => hfd j (hf.trans hj), by simp, h.rot, by simp, by simp, by simp, ?_⟩
      obtain ⟨cs, h1, h2⟩ := ht0
      refine ⟨cs, line.take auto, onDisk c.fn s, h1, ?_, ?_, h2⟩
      · dsimp only; rw [hb, List.nil_append, List.take_append_drop]
      · rw [hb, List.nil_append]
        have he := onDisk_append h (hfd i hf) (line.take auto) (line.drop auto) (.flushing line) s.calls s.alt s.stops
        dsimp only at he
        rw [hf] at he
        exact he
  | writeFails line hp hf =>
    rw [hp] at ht0
    refine ⟨hd, hbl, fun _ => h.fd (by simp [hp]), fun _ => h.buf (by simp [hp]), h.rot, by simp, by simp, by simp, ?_⟩
    have := CrPc.Says.ends h.txt
    have he : onDisk c.fn { s with pc := .idle, alt := s.alt ++ [line] } = onDisk c.fn s := rfl
    show AllButFew _ _ _ _
    rw [he]
    refine this.mono ?_
    dsimp only
    rw [List.length_append]
    simp only [List.length_cons, List.length_nil]
    split <;> omega
  | flush line w' hp _ hw =>
    rw [hp] at ht0
    have hfd := h.fd (by simp [hp])
    unfold FileW.flush at hw
    cases hf : s.w.file with
    | none => rw [hf] at hw; cases hw
    | some i =>
      rw [hf] at hw
      cases hw
      refine ⟨hd, hbl, fun _ j hj => hfd j (hf.trans hj), by simp, h.rot, by simp, by simp, by simp, ?_⟩
      obtain ⟨cs, p, t, h1, h2, h3, h4⟩ := ht0
      show AllButFew _ _ _ _
      have he := onDisk_append h (hfd i hf) s.w.buf [] .idle s.calls s.alt s.stops
      dsimp only at he ⊢
      rw [hf] at he
      rw [he, h1, h3, List.append_assoc, h2]
      have := AllButFew.snoc h4 (List.prefix_refl line)
      simpa using this
  | noFlush line hp hf => rw [hc] at hf; cases hf

theorem CrRun.inv {c : CrConf} (hc : c.forced = true) {s₀ s : CrState} (hs : CrStart s₀) (h : CrRun c s₀ s) :
    CrInv c (content s₀.w c.fn) s := by
  induction h with
  | init =>
    obtain ⟨h1, h2, h3, h4⟩ := hs.history
    refine ⟨hs.distinct, hs.below, fun _ i hi => ?_, fun _ => hs.closed.2, ?_, ?_, ?_, fun _ => hs.closed.1, ?_⟩
    · rw [hs.closed.1] at hi; cases hi
    · rw [h4]; simp
    · simp [hs.off]
    · simp [hs.off]
    · rw [hs.off]
      refine ⟨[], by rw [h1]; exact .nil, ?_, by simp [damaged]⟩
      unfold onDisk
      rw [h4]; simp
  | step _ hs' ih => exact ih.step hc hs'

/-- **C74**: at every moment of every history, with any number of stops and restarts of the program at any place (also in
the middle of a rotation), the disk holds what was there at first and then, in order, every line the handler was ever called
with, whole or cut short; those that are not whole are at most as many as there were stops and failed writes (which are given
to `alt`), and one more while a line is in work. -/
theorem C74_stop_loses_at_most_one_record (c : CrConf) (hc : c.forced = true) (s₀ s : CrState) (hs : CrStart s₀)
    (h : CrRun c s₀ s) :
    AllButFew (s.stops + s.alt.length + if inWork s then 1 else 0) (content s₀.w c.fn) s.calls (onDisk c.fn s) :=
  CrPc.Says.ends (h.inv hc hs).txt

theorem damaged_zero {kept lines : List Str} (h : List.Forall₂ (· <+: ·) kept lines) (hd : damaged kept lines = 0) :
    kept = lines := by
  induction h with
  | nil => rfl
  | @cons k l kept lines _ _ ih =>
    unfold damaged at hd
    have h1 : k = l := by
      by_contra hne
      rw [if_neg hne] at hd
      omega
    rw [h1, ih (by omega)]

/-- **C74**: as long as the program has not been stopped and the system did not refuse to open the file, the disk holds what was
there at first and all lines of finished calls, whole and in order. If a line is in work, a beginning of this line may follow.
So a stop now loses at most this line. -/
theorem C74_finished_records_are_on_the_disk (c : CrConf) (hc : c.forced = true) (s₀ s : CrState) (hs : CrStart s₀)
    (h : CrRun c s₀ s) (hstop : s.stops = 0) (halt : s.alt = []) :
    (¬ inWork s → onDisk c.fn s = content s₀.w c.fn ++ s.calls.flatten) ∧
    (inWork s → ∃ finished line p, s.calls = finished ++ [line] ∧ p <+: line ∧
      onDisk c.fn s = content s₀.w c.fn ++ finished.flatten ++ p) := by
  have hinv := (h.inv hc hs).txt
  have zero : ∀ {cs t}, AllButFew (s.stops + s.alt.length) (content s₀.w c.fn) cs t →
      t = content s₀.w c.fn ++ cs.flatten := by
    rintro cs t ⟨kept, h1, h2, h3⟩
    rw [hstop, halt] at h3
    rw [h2, damaged_zero h1 (Nat.le_zero.1 h3)]
  refine ⟨fun hw => ?_, fun hw => ?_⟩
  · unfold inWork at hw
    rw [not_and_or, not_not, not_not] at hw
    rcases hw with hw | hw <;> (rw [hw] at hinv; exact zero hinv)
  · have nil : ∀ line, (∃ cs, s.calls = cs ++ [line] ∧
        AllButFew (s.stops + s.alt.length) (content s₀.w c.fn) cs (onDisk c.fn s)) →
        ∃ finished line p, s.calls = finished ++ [line] ∧ p <+: line ∧
          onDisk c.fn s = content s₀.w c.fn ++ finished.flatten ++ p := by
      rintro line ⟨cs, h1, h2⟩
      exact ⟨cs, line, [], h1, List.nil_prefix, by rw [List.append_nil]; exact zero h2⟩
    cases hp : s.pc with
    | off => exact absurd hp hw.1
    | idle => exact absurd hp hw.2
    | flushing line =>
      rw [hp] at hinv
      obtain ⟨cs, p, t, h1, h2, h3, h4⟩ := hinv
      exact ⟨cs, line, p, h1, ⟨_, h2⟩, by rw [h3, zero h4]⟩
    | _ => rw [hp] at hinv; exact nil _ hinv

/-! A concrete history: one line is written, the next one makes the file rotate to another file system, the program is stopped
in the middle of the copy and started again. -/

def crEmpty : CrState := ⟨⟨fun _ => none, fun _ => [], 0, none, []⟩, .off, [], [], 0, []⟩

def crConf (forced : Bool) : CrConf := ⟨['f'], fun n => decide (2 ≤ n), forced⟩

theorem crEmpty_start : CrStart crEmpty :=
  ⟨rfl, ⟨rfl, rfl⟩, fun _ _ _ h => (nomatch h), fun _ _ h => (nomatch h), ⟨rfl, rfl, rfl, rfl⟩⟩

theorem CrRun.one (forced : Bool) : ∃ s, CrRun (crConf forced) crEmpty s ∧ s.pc = .idle ∧ s.calls = ["abc".toList] ∧
    s.alt = [] ∧ s.stops = 0 ∧ s.rotated = [] ∧ s.w.files = putAt (fun _ => none) ['f'] (some 0) ∧ s.w.fresh = 1 ∧
    s.w.file = some 0 ∧ s.w.data 0 = (if forced then "abc".toList else []) ∧
    s.w.buf = (if forced then [] else "abc".toList) := by
  have r1 := CrRun.init.step (CrStep.start (c := crConf forced) crEmpty rfl)
  have r2 := r1.step (.call _ "abc".toList rfl)
  have r3 := r2.step (.pass _ "abc".toList rfl (by
    intro n hn
    have : n = 0 := by injection hn with hn; rw [← hn]; rfl
    subst this; rfl))
  have r4 := r3.step (.write _ "abc".toList 0 _ rfl rfl)
  cases forced with
  | true => exact ⟨_, r4.step (.flush _ "abc".toList _ rfl rfl rfl), by refine ⟨rfl, rfl, rfl, rfl, rfl, rfl, rfl, rfl, rfl, rfl⟩⟩
  | false => exact ⟨_, r4.step (.noFlush _ "abc".toList rfl rfl), by refine ⟨rfl, rfl, rfl, rfl, rfl, rfl, rfl, rfl, rfl, rfl⟩⟩

/-- **C74**, why `forced_flush` is needed: with `forced_flush=False` one stop can lose records that were finished long ago, so
more than the one in work: here two of two. -/
theorem C74_forced_flush_is_needed : ∃ (c : CrConf) (s : CrState), c.forced = false ∧ CrRun c crEmpty s ∧
    s.stops = 1 ∧ s.alt = [] ∧ s.calls.length = 2 ∧ onDisk c.fn s = [] := by
  let c : CrConf := ⟨['f'], fun _ => false, false⟩
  have r1 := CrRun.init.step (CrStep.start (c := c) crEmpty rfl)
  have r2 := r1.step (.call _ "abc".toList rfl)
  have r3 := r2.step (.pass _ "abc".toList rfl (fun _ _ => rfl))
  have r4 := r3.step (.write _ "abc".toList 0 _ rfl rfl)
  have r5 := r4.step (.noFlush _ "abc".toList rfl rfl)
  have r6 := r5.step (.call _ "de".toList rfl)
  have r7 := r6.step (.pass _ "de".toList rfl (fun _ _ => rfl))
  have r8 := r7.step (.write _ "de".toList 0 _ rfl rfl)
  have r9 := r8.step (.noFlush _ "de".toList rfl rfl)
  have r10 := r9.step (.stop _ (fun h => nomatch h))
  exact ⟨c, _, rfl, r10, rfl, rfl, rfl, rfl⟩

/-- A history to which C74 applies: a rotation to another file system is stopped when two characters are copied; then the program is
started again. The disk holds the first line, the second one is lost, and it was in work. -/
example : ∃ s, CrRun (crConf true) crEmpty s ∧ s.stops = 1 ∧ s.pc = .idle ∧ s.calls = ["abc".toList, "de".toList] ∧
    onDisk ['f'] s = "abc".toList ∧ content s.w ['g'] = "ab".toList := by
  obtain ⟨⟨⟨files, data, fresh, file, buf⟩, pc, calls, alt, stops, rotated⟩, r, h1, h2, h3, h4, h5, h6, h7, h8, h9, h10⟩ :=
    CrRun.one true
  dsimp only at h1 h2 h3 h4 h5 h6 h7 h8 h9 h10
  subst h1 h2 h3 h4 h5 h6 h7 h8 h10
  have r2 := r.step (.call _ "de".toList rfl)
  have r3 := r2.step (.fire _ "de".toList 3 rfl (by
    show some (byteSize (data 0)) = some 3
    rw [h9]; rfl) rfl)
  have r4 := r3.step (.copyBegins _ "de".toList ['g'] false rfl (fun h => nomatch h) rfl (by decide))
  have r5 := r4.step (.copyGoesOn _ "de".toList ['g'] 0 1 2 rfl rfl rfl)
  have r6 := r5.step (.stop _ (fun h => nomatch h))
  have r7 := r6.step (.start _ rfl)
  refine ⟨_, r7, rfl, rfl, rfl, ?_, ?_⟩
  · show [] ++ data 0 = _
    rw [h9]; rfl
  · show (data 0).take 2 = _
    rw [h9]; rfl

end Polog
