import Verif.File.Spec

namespace Polog
open FileSpec

theorem putAt_same {α β : Type} [DecidableEq α] (f : α → β) (a : α) (b : β) : putAt f a b a = b := if_pos rfl

theorem putAt_ne {α β : Type} [DecidableEq α] (f : α → β) {a x : α} (b : β) (h : x ≠ a) :
    putAt f a b x = f x := if_neg h

theorem putAt_self {α β : Type} [DecidableEq α] (f : α → β) (a : α) : putAt f a (f a) = f := by
  funext x
  by_cases h : x = a
  · subst h; exact putAt_same ..
  · exact putAt_ne _ _ h

/-- The file system and the open file are in order. -/
structure FWf (fn : Str) (w : FileW) : Prop where
  distinct : ∀ p q i, w.files p = some i → w.files q = some i → p = q
  below : ∀ p i, w.files p = some i → i < w.fresh
  sync : ∀ i, w.file = some i → w.files fn = some i
  closed : w.file = none → w.buf = []

theorem content_congr {w w' : FileW} {p : Str} (h1 : w'.files p = w.files p)
    (h2 : ∀ i, w.files p = some i → w'.data i = w.data i) : content w' p = content w p := by
  unfold content
  rw [h1]
  cases h : w.files p with
  | none => rfl
  | some i => exact h2 i h

theorem content_some {w : FileW} {p : Str} {i : Nat} (h : w.files p = some i) : content w p = w.data i := by
  unfold content; rw [h]

theorem content_none {w : FileW} {p : Str} (h : w.files p = none) : content w p = [] := by
  unfold content; rw [h]

/-- Reopening after the file has been moved to `target`. -/
theorem reopen_spec {w : FileW} {fn target : Str} (ok : Bool) (hne : target ≠ fn)
    (hfn : w.files fn = none) {j : Nat} (ht : w.files target = some j)
    (hd : ∀ p q i, w.files p = some i → w.files q = some i → p = q)
    (hb : ∀ p i, w.files p = some i → i < w.fresh)
    (hbuf : ∀ i, w.file = some i → i = j ∨ w.buf = [])
    (hcl : w.file = none → w.buf = []) :
    FWf fn (w.reopen fn ok) ∧
    (∀ p, p ≠ fn → (w.reopen fn ok).files p = w.files p) ∧
    (∀ p, p ≠ fn → p ≠ target → content (w.reopen fn ok) p = content w p) ∧
    content (w.reopen fn ok) target = content w target ++ w.buf ∧
    content (w.reopen fn ok) fn = [] ∧ (w.reopen fn ok).buf = [] ∧
    ((w.reopen fn ok).file = none ↔ ok = false) := by
  -- after closing
  have hclose : ∃ d, w.close = { w with data := d, file := none, buf := [] } ∧
      d j = w.data j ++ w.buf ∧ ∀ p i, p ≠ target → w.files p = some i → d i = w.data i := by
    unfold FileW.close
    cases hf : w.file with
    | none =>
      refine ⟨w.data, ?_, by rw [hcl hf, List.append_nil], fun _ _ _ _ => rfl⟩
      have := hcl hf
      cases w; simp_all
    | some i =>
      refine ⟨_, rfl, ?_, ?_⟩
      · rcases hbuf i hf with rfl | hb0
        · rw [putAt_same]
        · rw [hb0, List.append_nil, List.append_nil, putAt_self]
      · intro p k hp hk
        rcases hbuf i hf with rfl | hb0
        · rw [putAt_ne]
          rintro rfl
          exact hp (hd p target _ hk ht)
        · rw [hb0, List.append_nil, putAt_self]
  obtain ⟨d, hc, hdj, hdi⟩ := hclose
  have hje : j < w.fresh := hb _ _ ht
  unfold FileW.reopen FileW.open
  rw [hc]
  cases ok with
  | false =>
    refine ⟨⟨hd, hb, fun i h => (by cases h), fun _ => rfl⟩, fun _ _ => rfl, ?_, ?_, ?_, rfl, by simp⟩
    · intro p _ hp; exact content_congr rfl (fun i hi => hdi p i hp hi)
    · rw [content_some (i := j) (by exact ht), content_some ht]; exact hdj
    · exact content_none hfn
  | true =>
    dsimp only
    rw [if_pos rfl, hfn]
    dsimp only
    refine ⟨⟨?_, ?_, ?_, fun h => (by cases h)⟩, ?_, ?_, ?_, ?_, rfl, by simp⟩
    · intro p q i hp hq
      dsimp only at hp hq
      by_cases h1 : p = fn <;> by_cases h2 : q = fn
      · rw [h1, h2]
      · rw [h1, putAt_same] at hp
        rw [putAt_ne _ _ h2] at hq
        cases hp
        exact absurd (hb _ _ hq) (Nat.lt_irrefl _)
      · rw [h2, putAt_same] at hq
        rw [putAt_ne _ _ h1] at hp
        cases hq
        exact absurd (hb _ _ hp) (Nat.lt_irrefl _)
      · rw [putAt_ne _ _ h1] at hp
        rw [putAt_ne _ _ h2] at hq
        exact hd p q i hp hq
    · intro p i hp
      dsimp only at hp ⊢
      by_cases h1 : p = fn
      · rw [h1, putAt_same] at hp; cases hp; omega
      · rw [putAt_ne _ _ h1] at hp
        have := hb _ _ hp; omega
    · intro i h
      cases h
      exact putAt_same ..
    · intro p hp; exact putAt_ne _ _ hp
    · intro p hp1 hp2
      refine content_congr (putAt_ne _ _ hp1) ?_
      intro i hi
      have := hb _ _ hi
      dsimp only
      rw [putAt_ne _ _ (by omega)]
      exact hdi p i hp2 hi
    · rw [content_some (i := j) (by exact (putAt_ne _ _ hne).trans ht), content_some ht]
      dsimp only
      rw [putAt_ne _ _ (by omega)]
      exact hdj
    · rw [content_some (i := w.fresh) (by exact putAt_same ..)]
      exact putAt_same ..

/-- A new file. -/
def FileW.addFile (w : FileW) (target d : Str) : FileW :=
  { w with files := putAt w.files target (some w.fresh), data := putAt w.data w.fresh d, fresh := w.fresh + 1 }

/-- What one attempt to move does. -/
theorem moveOnce_spec {w : FileW} {fn target : Str} (r : MoveRes) (hw : FWf fn w) (hne : target ≠ fn)
    (hfree : w.files target = none) :
    -- moved
    (∀ w1, w.moveOnce fn target r = (w1, .moved) →
      w1.files fn = none ∧ (∃ j, w1.files target = some j ∧
        ∀ i, w1.file = some i → i = j ∨ r.copies = true) ∧
      (∀ p q i, w1.files p = some i → w1.files q = some i → p = q) ∧
      (∀ p i, w1.files p = some i → i < w1.fresh) ∧
      w1.file = w.file ∧ w1.buf = w.buf ∧ content w1 target = content w fn ∧
      (∀ p, p ≠ fn → p ≠ target → w1.files p = w.files p) ∧
      (∀ p, p ≠ fn → p ≠ target → content w1 p = content w p)) ∧
    -- failed
    (∀ w1, w.moveOnce fn target r = (w1, .failed) →
      FWf fn w1 ∧ w1.file = w.file ∧ w1.buf = w.buf ∧
      (∀ p, p ≠ target → w1.files p = w.files p) ∧
      (∀ p, p ≠ target → content w1 p = content w p)) ∧
    (∀ w1, w.moveOnce fn target r = (w1, .notFound) → w1 = w) := by
  unfold FileW.moveOnce
  have hfiles : ∀ {p : Str}, p ≠ fn → p ≠ target → ∀ x : Option Nat,
      putAt (putAt w.files fn none) target x p = w.files p := by
    intro p h1 h2 x; rw [putAt_ne _ _ h2, putAt_ne _ _ h1]
  have hfresh : ∀ (d : Str) (p : Str) (i : Nat), w.files p = some i →
      putAt w.data w.fresh d i = w.data i := by
    intro d p i hi
    have := hw.below _ _ hi
    exact putAt_ne _ _ (by omega)
  -- adding a new file
  have hadd : ∀ d : Str, FWf fn (w.addFile target d) := by
    intro d
    refine ⟨?_, ?_, ?_, hw.closed⟩
    · intro p q i hp hq
      dsimp only [FileW.addFile] at hp hq
      by_cases h1 : p = target <;> by_cases h2 : q = target
      · rw [h1, h2]
      · rw [h1, putAt_same] at hp
        rw [putAt_ne _ _ h2] at hq
        cases hp
        exact absurd (hw.below _ _ hq) (Nat.lt_irrefl _)
      · rw [h2, putAt_same] at hq
        rw [putAt_ne _ _ h1] at hp
        cases hq
        exact absurd (hw.below _ _ hp) (Nat.lt_irrefl _)
      · rw [putAt_ne _ _ h1] at hp
        rw [putAt_ne _ _ h2] at hq
        exact hw.distinct p q i hp hq
    · intro p i hp
      dsimp only [FileW.addFile] at hp ⊢
      by_cases h1 : p = target
      · rw [h1, putAt_same] at hp; cases hp; omega
      · rw [putAt_ne _ _ h1] at hp
        have := hw.below _ _ hp; omega
    · intro i h
      dsimp only [FileW.addFile]
      rw [putAt_ne _ _ hne.symm]
      exact hw.sync i h
  have hadd2 : ∀ (d : Str) (p : Str), p ≠ target → content (w.addFile target d) p = content w p := by
    intro d p hp
    exact content_congr (putAt_ne _ _ hp) (fun i hi => hfresh d p i hi)
  cases hfn : w.files fn with
  | none =>
    dsimp only
    refine ⟨fun w1 h => ?_, fun w1 h => ?_, fun w1 h => ?_⟩
    · exact absurd (congrArg Prod.snd h) (by dsimp only; decide)
    · exact absurd (congrArg Prod.snd h) (by dsimp only; decide)
    · exact (congrArg Prod.fst h).symm
  | some i =>
    cases r with
    | noDirectory =>
      dsimp only
      refine ⟨fun w1 h => ?_, fun w1 h => ?_, fun w1 h => ?_⟩
      · exact absurd (congrArg Prod.snd h) (by dsimp only; decide)
      · exact absurd (congrArg Prod.snd h) (by dsimp only; decide)
      · exact (congrArg Prod.fst h).symm
    | refused =>
      dsimp only
      refine ⟨fun w1 h => ?_, fun w1 h => ?_, fun w1 h => ?_⟩
      · exact absurd (congrArg Prod.snd h) (by dsimp only; decide)
      · obtain rfl := congrArg Prod.fst h
        exact ⟨hw, rfl, rfl, fun _ _ => rfl, fun _ _ => rfl⟩
      · exact absurd (congrArg Prod.snd h) (by dsimp only; decide)
    | broken k =>
      dsimp only
      refine ⟨fun w1 h => ?_, fun w1 h => ?_, fun w1 h => ?_⟩
      · exact absurd (congrArg Prod.snd h) (by dsimp only; decide)
      · obtain rfl := congrArg Prod.fst h
        exact ⟨hadd _, rfl, rfl, fun p hp => putAt_ne _ _ hp, fun p hp => hadd2 _ p hp⟩
      · exact absurd (congrArg Prod.snd h) (by dsimp only; decide)
    | notRemoved =>
      dsimp only
      refine ⟨fun w1 h => ?_, fun w1 h => ?_, fun w1 h => ?_⟩
      · exact absurd (congrArg Prod.snd h) (by dsimp only; decide)
      · obtain rfl := congrArg Prod.fst h
        exact ⟨hadd _, rfl, rfl, fun p hp => putAt_ne _ _ hp, fun p hp => hadd2 _ p hp⟩
      · exact absurd (congrArg Prod.snd h) (by dsimp only; decide)
    | renamed =>
      dsimp only
      refine ⟨fun w1 h => ?_, fun w1 h => ?_, fun w1 h => ?_⟩
      · obtain rfl := congrArg Prod.fst h
        refine ⟨?_, ⟨i, putAt_same .., ?_⟩, ?_, ?_, rfl, rfl, ?_, ?_, ?_⟩
        · dsimp only; rw [putAt_ne _ _ hne.symm, putAt_same]
        · intro k hk
          have := hw.sync k hk
          rw [hfn] at this; cases this; exact .inl rfl
        · intro p q k hp hq
          dsimp only at hp hq
          have key : ∀ {p}, putAt (putAt w.files fn none) target (some i) p = some k →
              (p = target ∧ k = i) ∨ (p ≠ target ∧ p ≠ fn ∧ w.files p = some k) := by
            intro p hp
            by_cases h1 : p = target
            · subst h1; rw [putAt_same] at hp; cases hp; exact .inl ⟨rfl, rfl⟩
            · rw [putAt_ne _ _ h1] at hp
              by_cases h2 : p = fn
              · subst h2; rw [putAt_same] at hp; cases hp
              · rw [putAt_ne _ _ h2] at hp; exact .inr ⟨h1, h2, hp⟩
          rcases key hp with ⟨rfl, rfl⟩ | ⟨p1, p2, p3⟩ <;> rcases key hq with ⟨rfl, hk⟩ | ⟨q1, q2, q3⟩
          · rfl
          · exact absurd (hw.distinct _ _ _ q3 hfn) q2
          · subst hk; exact absurd (hw.distinct _ _ _ p3 hfn) p2
          · exact hw.distinct _ _ _ p3 q3
        · intro p k hp
          dsimp only at hp ⊢
          by_cases h1 : p = target
          · subst h1; rw [putAt_same] at hp; cases hp; exact hw.below _ _ hfn
          · rw [putAt_ne _ _ h1] at hp
            by_cases h2 : p = fn
            · subst h2; rw [putAt_same] at hp; cases hp
            · rw [putAt_ne _ _ h2] at hp; exact hw.below _ _ hp
        · rw [content_some (i := i) (by exact putAt_same ..), content_some hfn]
        · intro p h1 h2; exact hfiles h1 h2 _
        · intro p h1 h2; exact content_congr (hfiles h1 h2 _) (fun _ _ => rfl)
      · exact absurd (congrArg Prod.snd h) (by dsimp only; decide)
      · exact absurd (congrArg Prod.snd h) (by dsimp only; decide)
    | copied =>
      dsimp only
      refine ⟨fun w1 h => ?_, fun w1 h => ?_, fun w1 h => ?_⟩
      · obtain rfl := congrArg Prod.fst h
        refine ⟨?_, ⟨w.fresh, putAt_same .., fun _ _ => .inr rfl⟩, ?_, ?_, rfl, rfl, ?_, ?_, ?_⟩
        · dsimp only; rw [putAt_ne _ _ hne.symm, putAt_same]
        · intro p q k hp hq
          dsimp only at hp hq
          have key : ∀ {p}, putAt (putAt w.files fn none) target (some w.fresh) p = some k →
              (p = target ∧ k = w.fresh) ∨ (p ≠ target ∧ w.files p = some k) := by
            intro p hp
            by_cases h1 : p = target
            · subst h1; rw [putAt_same] at hp; cases hp; exact .inl ⟨rfl, rfl⟩
            · rw [putAt_ne _ _ h1] at hp
              by_cases h2 : p = fn
              · subst h2; rw [putAt_same] at hp; cases hp
              · rw [putAt_ne _ _ h2] at hp; exact .inr ⟨h1, hp⟩
          rcases key hp with ⟨rfl, rfl⟩ | ⟨p1, p3⟩ <;> rcases key hq with ⟨rfl, hk⟩ | ⟨q1, q3⟩
          · rfl
          · exact absurd (hw.below _ _ q3) (Nat.lt_irrefl _)
          · subst hk; exact absurd (hw.below _ _ p3) (Nat.lt_irrefl _)
          · exact hw.distinct _ _ _ p3 q3
        · intro p k hp
          dsimp only at hp ⊢
          by_cases h1 : p = target
          · subst h1; rw [putAt_same] at hp; cases hp; omega
          · rw [putAt_ne _ _ h1] at hp
            by_cases h2 : p = fn
            · subst h2; rw [putAt_same] at hp; cases hp
            · rw [putAt_ne _ _ h2] at hp; have := hw.below _ _ hp; omega
        · rw [content_some (i := w.fresh) (by exact putAt_same ..), content_some hfn]
          exact putAt_same ..
        · intro p h1 h2; exact hfiles h1 h2 _
        · intro p h1 h2; exact content_congr (hfiles h1 h2 _) (fun k hk => hfresh _ p k hk)
      · exact absurd (congrArg Prod.snd h) (by dsimp only; decide)
      · exact absurd (congrArg Prod.snd h) (by dsimp only; decide)

/-- What a rotation does, if it cannot lose the buffer. -/
theorem moveFile_spec {w : FileW} {fn target : Str} (e : MoveEnv) (hw : FWf fn w) (hne : target ≠ fn)
    (hfree : w.files target = none)
    (hsafe : w.buf = [] ∨ (e.first.copies = false ∧ e.second.copies = false)) :
    FWf fn (w.moveFile fn target e).1 ∧
    (∀ p, p ≠ fn → p ≠ target → (w.moveFile fn target e).1.files p = w.files p ∧
      content (w.moveFile fn target e).1 p = content w p) ∧
    ((w.moveFile fn target e).2 = true → (w.moveFile fn target e).1.files target ≠ none ∧
      content (w.moveFile fn target e).1 target = content w fn ++ w.buf ∧
      content (w.moveFile fn target e).1 fn = [] ∧ (w.moveFile fn target e).1.buf = [] ∧
      ((w.moveFile fn target e).1.file = none ↔ e.opened = false)) ∧
    ((w.moveFile fn target e).2 = false →
      content (w.moveFile fn target e).1 fn = content w fn ∧ (w.moveFile fn target e).1.buf = w.buf ∧
      (w.moveFile fn target e).1.file = w.file) := by
  have done : ∀ (r : MoveRes) (w1 : FileW), w.moveOnce fn target r = (w1, .moved) →
      (w.buf = [] ∨ r.copies = false) →
      FWf fn (w1.reopen fn e.opened) ∧
      (∀ p, p ≠ fn → p ≠ target → (w1.reopen fn e.opened).files p = w.files p ∧
        content (w1.reopen fn e.opened) p = content w p) ∧
      ((w1.reopen fn e.opened).files target ≠ none ∧
        content (w1.reopen fn e.opened) target = content w fn ++ w.buf ∧
        content (w1.reopen fn e.opened) fn = [] ∧ (w1.reopen fn e.opened).buf = [] ∧
        ((w1.reopen fn e.opened).file = none ↔ e.opened = false)) := by
    intro r w1 h hs
    obtain ⟨a1, ⟨j, a2, a3⟩, a4, a5, a6, a7, a8, a9, a10⟩ := (moveOnce_spec r hw hne hfree).1 w1 h
    obtain ⟨b1, b2, b3, b4, b5, b6, b7⟩ := reopen_spec e.opened hne a1 a2 a4 a5
      (by
        intro i hi
        rcases a3 i hi with h' | h'
        · exact .inl h'
        · rcases hs with hs | hs
          · exact .inr (a7.trans hs)
          · rw [h'] at hs; cases hs)
      (by rw [a6, a7]; exact hw.closed)
    refine ⟨b1, ?_, ?_, ?_, b5, b6, b7⟩
    · intro p h1 h2
      exact ⟨(b2 p h1).trans (a9 p h1 h2), (b3 p h1 h2).trans (a10 p h1 h2)⟩
    · rw [b2 target hne, a2]; simp
    · rw [b4, a8, a7]
  have hs1 : w.buf = [] ∨ e.first.copies = false := hsafe.imp id And.left
  have hs2 : w.buf = [] ∨ e.second.copies = false := hsafe.imp id And.right
  unfold FileW.moveFile
  rcases h1 : w.moveOnce fn target e.first with ⟨w1, o⟩
  cases o with
  | moved =>
    obtain ⟨c1, c2, c3⟩ := done _ w1 h1 hs1
    exact ⟨c1, c2, fun _ => c3, fun h => (by cases h)⟩
  | failed =>
    obtain ⟨c1, c2, c3, c4, c5⟩ := (moveOnce_spec e.first hw hne hfree).2.1 w1 h1
    exact ⟨c1, fun p _ hp => ⟨c4 p hp, c5 p hp⟩, fun h => (by cases h), fun _ => ⟨c5 fn hne.symm, c3, c2⟩⟩
  | notFound =>
    obtain rfl := (moveOnce_spec e.first hw hne hfree).2.2 w1 h1
    dsimp only
    cases e.mkdir with
    | false =>
      exact ⟨hw, fun p _ _ => ⟨rfl, rfl⟩, fun h => (by cases h), fun _ => ⟨rfl, rfl, rfl⟩⟩
    | true =>
      rw [if_pos rfl]
      rcases h2 : w1.moveOnce fn target e.second with ⟨w2, o⟩
      cases o with
      | moved =>
        obtain ⟨c1, c2, c3⟩ := done _ w2 h2 hs2
        exact ⟨c1, c2, fun _ => c3, fun h => (by cases h)⟩
      | failed =>
        obtain ⟨c1, c2, c3, c4, c5⟩ := (moveOnce_spec e.second hw hne hfree).2.1 w2 h2
        exact ⟨c1, fun p _ hp => ⟨c4 p hp, c5 p hp⟩, fun h => (by cases h), fun _ => ⟨c5 fn hne.symm, c3, c2⟩⟩
      | notFound =>
        obtain rfl := (moveOnce_spec e.second hw hne hfree).2.2 w2 h2
        exact ⟨hw, fun p _ _ => ⟨rfl, rfl⟩, fun h => (by cases h), fun _ => ⟨rfl, rfl, rfl⟩⟩

theorem append_spec {w : FileW} {fn : Str} {i : Nat} (hw : FWf fn w) (hf : w.file = some i) (d b : Str) :
    FWf fn { w with data := putAt w.data i (w.data i ++ d), buf := b } ∧
    content { w with data := putAt w.data i (w.data i ++ d), buf := b } fn = content w fn ++ d ∧
    (∀ p, p ≠ fn → content { w with data := putAt w.data i (w.data i ++ d), buf := b } p = content w p) := by
  have hi := hw.sync i hf
  refine ⟨⟨hw.distinct, hw.below, hw.sync, fun h => ?_⟩, ?_, ?_⟩
  · dsimp only at h; rw [hf] at h; cases h
  · rw [content_some (i := i) (by exact hi), content_some hi]; exact putAt_same ..
  · intro p hp
    refine content_congr rfl (fun k hk => putAt_ne _ _ ?_)
    rintro rfl
    exact hp (hw.distinct _ _ _ hk hi)

/-- Invariant of all runs. -/
structure FInv (c : FConf) (s₀ s : FState) : Prop where
  wf : FWf c.fn s.w
  rotated : ∀ p ∈ s.rotated, p ≠ c.fn ∧ s.w.files p ≠ none
  content : NothingLost c.fn s₀ s

theorem FInv.init {c : FConf} {s₀ : FState} (h : FStart c s₀) : FInv c s₀ s₀ := by
  obtain ⟨i, h1, h2⟩ := h.opened
  obtain ⟨h3, h4, h5⟩ := h.history
  refine ⟨⟨h.distinct, h.below, ?_, fun _ => h.buf⟩, by simp [h5], ?_⟩
  · intro k hk; rw [h2] at hk; cases hk; exact h1
  · simp [NothingLost, h3, h5, h.buf]

theorem FInv.step {c : FConf} {s₀ s s' : FState} (h : FInv c s₀ s) (hs : FStep c s s')
    (hsafe : c.sameFs = true ∨ ∀ t line, s.pc t = .moving line → s.w.buf = []) : FInv c s₀ s' := by
  cases hs with
  | call t line => exact ⟨h.wf, h.rotated, h.content⟩
  | lock t line => exact ⟨h.wf, h.rotated, h.content⟩
  | fire t line => exact ⟨h.wf, h.rotated, h.content⟩
  | pass t line => exact ⟨h.wf, h.rotated, h.content⟩
  | writeFails t line => exact ⟨h.wf, h.rotated, h.content⟩
  | flushFails t line => exact ⟨h.wf, h.rotated, h.content⟩
  | noFlush t line => exact ⟨h.wf, h.rotated, h.content⟩
  | write t line auto w' hpc hw =>
    unfold FileW.write at hw
    cases hf : s.w.file with
    | none => rw [hf] at hw; cases hw
    | some i =>
      rw [hf] at hw; cases hw
      rw [← hf]
      obtain ⟨a1, a2, a3⟩ := append_spec h.wf hf ((s.w.buf ++ line).take auto) ((s.w.buf ++ line).drop auto)
      refine ⟨a1, h.rotated, ?_⟩
      have hc := h.content
      unfold NothingLost at hc ⊢
      dsimp only
      rw [a2, List.map_congr_left (fun p hp => a3 p (h.rotated p hp).1), List.flatten_append]
      simp only [List.append_assoc, List.take_append_drop, List.flatten_cons, List.flatten_nil,
        List.append_nil] at hc ⊢
      rw [← List.append_assoc (FileSpec.content s₀.w c.fn), ← hc]
      simp only [List.append_assoc]
  | flush t line w' hpc hforced hw =>
    unfold FileW.flush at hw
    cases hf : s.w.file with
    | none => rw [hf] at hw; cases hw
    | some i =>
      rw [hf] at hw; cases hw
      rw [← hf]
      obtain ⟨a1, a2, a3⟩ := append_spec h.wf hf s.w.buf []
      refine ⟨a1, h.rotated, ?_⟩
      have hc := h.content
      unfold NothingLost at hc ⊢
      dsimp only
      rw [a2, List.map_congr_left (fun p hp => a3 p (h.rotated p hp).1)]
      simpa using hc
  | move t line target e hpc hfree hne hcop _ =>
    obtain ⟨a1, a2, a3, a4⟩ := moveFile_spec e h.wf hne hfree
      (hsafe.elim (fun hh => .inr (hcop hh)) (fun hh => .inl (hh t line hpc)))
    have hold : ∀ p ∈ s.rotated, p ≠ target := by
      rintro p hp rfl
      exact (h.rotated p hp).2 hfree
    have hmap : s.rotated.map (FileSpec.content (s.w.moveFile c.fn target e).1) =
        s.rotated.map (FileSpec.content s.w) :=
      List.map_congr_left (fun p hp => (a2 p (h.rotated p hp).1 (hold p hp)).2)
    have hc := h.content
    unfold NothingLost at hc
    refine ⟨a1, ?_, ?_⟩
    · dsimp only
      intro p hp
      have hp' : p ∈ s.rotated ∨ ((s.w.moveFile c.fn target e).2 = true ∧ p = target) := by
        cases hm : (s.w.moveFile c.fn target e).2 with
        | true =>
          rw [hm, if_pos rfl, List.mem_append, List.mem_singleton] at hp
          exact hp.imp id (fun h => ⟨rfl, h⟩)
        | false => rw [hm] at hp; exact .inl hp
      rcases hp' with hp | ⟨hm, rfl⟩
      · refine ⟨(h.rotated p hp).1, ?_⟩
        rw [(a2 p (h.rotated p hp).1 (hold p hp)).1]
        exact (h.rotated p hp).2
      · exact ⟨hne, (a3 hm).1⟩
    · unfold NothingLost
      dsimp only
      cases hm : (s.w.moveFile c.fn target e).2 with
      | true =>
        obtain ⟨_, b1, b2, b3, _⟩ := a3 hm
        rw [if_pos rfl, List.map_append, hmap, List.flatten_append, b2, b3]
        simp only [List.map_cons, List.map_nil, List.flatten_cons, List.flatten_nil, List.append_nil]
        rw [b1, ← hc, List.append_assoc]
      | false =>
        obtain ⟨b1, b2, _⟩ := a4 hm
        rw [if_neg (by simp), hmap, b1, b2, ← hc]

end Polog
