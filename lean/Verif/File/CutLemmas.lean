import Verif.File.Lemmas
import Verif.File.CutSpec
import Mathlib.Tactic.Convert

/-! Invariants of a file handler that is interrupted. -/

namespace Polog
open FileSpec CutSpec

/-- The files, the open file and its buffer are in order and contain this text. -/
structure CuWf (fn : Str) (w : FileW) (rotated : List Str) (text : Str) : Prop where
  distinct : ∀ p q i, w.files p = some i → w.files q = some i → p = q
  below : ∀ p i, w.files p = some i → i < w.fresh
  named : ∀ r ∈ rotated, w.files r ≠ none
  nodup : rotated.Nodup
  notFn : fn ∉ rotated
  sync : ∀ i, w.file = some i → w.files fn = some i ∨
    (w.files fn = none ∧ ∃ a last, rotated = a ++ [last] ∧ w.files last = some i)
  closed : w.file = none → w.buf = []
  text : (rotated.map (content w)).flatten ++ content w fn ++ w.buf = text

/-- The contents of files with other names stay. -/
theorem map_content_putAt {w : FileW} {i : Nat} (d b : Str) (f : Option Nat) (l : List Str)
    (h : ∀ r ∈ l, w.files r ≠ some i) :
    l.map (content { w with data := putAt w.data i d, buf := b, file := f }) = l.map (content w) := by
  refine List.map_congr_left (fun r hr => content_congr rfl (fun j hj => ?_))
  exact putAt_ne _ _ (fun e => h r hr (by rw [← e]; exact hj))

/-- The text ends with the contents of the open file and its buffer. -/
theorem CuWf.split {fn : Str} {w : FileW} {rotated : List Str} {text : Str} (h : CuWf fn w rotated text) {i : Nat}
    (hf : w.file = some i) :
    ∃ pre, text = pre ++ w.data i ++ w.buf ∧ ∀ d b f, (f = some i ∨ (f = none ∧ b = [])) →
      CuWf fn { w with data := putAt w.data i d, buf := b, file := f } rotated (pre ++ d ++ b) := by
  rcases h.sync i hf with hs | ⟨hn, a, last, hr, hl⟩
  · refine ⟨(rotated.map (content w)).flatten, by rw [← h.text, content_some hs], fun d b f hfb => ?_⟩
    refine ⟨h.distinct, h.below, h.named, h.nodup, h.notFn, ?_, ?_, ?_⟩
    · intro j hj
      rcases hfb with e | ⟨e, _⟩
      · rw [e] at hj; cases hj; exact .inl hs
      · rw [e] at hj; cases hj
    · intro e
      rcases hfb with e' | ⟨_, e'⟩
      · rw [e'] at e; cases e
      · exact e'
    · rw [map_content_putAt, content_some (i := i) (by exact hs)]
      · dsimp only; rw [putAt_same]
      · intro r hr he
        have := h.distinct r fn i he hs
        subst this
        exact h.notFn hr
  · refine ⟨(a.map (content w)).flatten, ?_, fun d b f hfb => ?_⟩
    · rw [← h.text, hr, content_none hn]
      simp [content_some hl]
    · refine ⟨h.distinct, h.below, h.named, h.nodup, h.notFn, ?_, ?_, ?_⟩
      · intro j hj
        rcases hfb with e | ⟨e, _⟩
        · rw [e] at hj; cases hj; exact .inr ⟨hn, a, last, hr, hl⟩
        · rw [e] at hj; cases hj
      · intro e
        rcases hfb with e' | ⟨_, e'⟩
        · rw [e'] at e; cases e
        · exact e'
      · have ha : ∀ r ∈ a, w.files r ≠ some i := by
          intro r hra he
          have := h.distinct r last i he hl
          subst this
          have hnd := h.nodup
          rw [hr, List.nodup_append] at hnd
          exact hnd.2.2 r hra r (by simp) rfl
        rw [hr, List.map_append, map_content_putAt _ _ _ _ ha, content_none (p := fn) (by exact hn)]
        simp only [List.map_cons, List.map_nil, List.flatten_append, List.flatten_cons, List.flatten_nil,
          List.append_nil]
        rw [content_some (i := i) (by exact hl)]
        dsimp only; rw [putAt_same]

theorem CuWf.write {fn : Str} {w w' : FileW} {rotated : List Str} {text line : Str} {auto : Nat}
    (h : CuWf fn w rotated text) (hw : w.write line auto = some w') : CuWf fn w' rotated (text ++ line) := by
  unfold FileW.write at hw
  cases hf : w.file with
  | none => rw [hf] at hw; cases hw
  | some i =>
    rw [hf] at hw
    obtain ⟨pre, h1, h2⟩ := h.split hf
    have := h2 (w.data i ++ (w.buf ++ line).take auto) ((w.buf ++ line).drop auto) (some i) (.inl rfl)
    cases hw
    convert this using 1
    rw [h1]
    simp only [List.append_assoc, List.take_append_drop]

theorem CuWf.flush {fn : Str} {w w' : FileW} {rotated : List Str} {text : Str}
    (h : CuWf fn w rotated text) (hw : w.flush = some w') : CuWf fn w' rotated text := by
  unfold FileW.flush at hw
  cases hf : w.file with
  | none => rw [hf] at hw; cases hw
  | some i =>
    rw [hf] at hw
    obtain ⟨pre, h1, h2⟩ := h.split hf
    have := h2 (w.data i ++ w.buf) [] (some i) (.inl rfl)
    cases hw
    convert this using 1
    rw [h1]
    simp only [List.append_assoc, List.append_nil]

theorem CuWf.close {fn : Str} {w : FileW} {rotated : List Str} {text : Str}
    (h : CuWf fn w rotated text) : CuWf fn w.close rotated text ∧ w.close.file = none := by
  unfold FileW.close
  cases hf : w.file with
  | none => exact ⟨h, hf⟩
  | some i =>
    obtain ⟨pre, h1, h2⟩ := h.split hf
    have := h2 (w.data i ++ w.buf) [] none (.inr ⟨rfl, rfl⟩)
    refine ⟨?_, rfl⟩
    convert this using 1
    rw [h1]
    simp only [List.append_assoc, List.append_nil]

theorem CuWf.open {fn : Str} {w : FileW} {rotated : List Str} {text : Str} (h : CuWf fn w rotated text)
    (hf : w.file = none) : CuWf fn (w.open fn true) rotated text := by
  unfold FileW.open
  rw [if_pos rfl]
  cases hn : w.files fn with
  | some i =>
    refine ⟨h.distinct, h.below, h.named, h.nodup, h.notFn, fun j hj => ?_, (fun e => nomatch e), ?_⟩
    · cases hj; exact .inl hn
    · rw [← h.text]; rfl
  | none =>
    dsimp only
    have hne : ∀ r ∈ rotated, r ≠ fn := fun r hr e => h.notFn (e ▸ hr)
    refine ⟨fun p q i hp hq => ?_, fun p i hp => ?_, fun r hr => ?_, h.nodup, h.notFn, fun j hj => ?_, (fun e => nomatch e), ?_⟩
    · dsimp only at hp hq
      by_cases h1 : p = fn <;> by_cases h2 : q = fn
      · rw [h1, h2]
      · rw [h1, putAt_same] at hp
        rw [putAt_ne _ _ h2] at hq
        cases hp
        exact absurd (h.below _ _ hq) (Nat.lt_irrefl _)
      · rw [h2, putAt_same] at hq
        rw [putAt_ne _ _ h1] at hp
        cases hq
        exact absurd (h.below _ _ hp) (Nat.lt_irrefl _)
      · rw [putAt_ne _ _ h1] at hp
        rw [putAt_ne _ _ h2] at hq
        exact h.distinct p q i hp hq
    · dsimp only at hp ⊢
      by_cases h1 : p = fn
      · rw [h1, putAt_same] at hp; cases hp; omega
      · rw [putAt_ne _ _ h1] at hp
        have := h.below _ _ hp; omega
    · dsimp only
      rw [putAt_ne _ _ (hne r hr)]
      exact h.named r hr
    · cases hj
      exact .inl (putAt_same ..)
    · rw [← h.text, content_none hn, content_some (i := w.fresh) (by exact putAt_same ..)]
      dsimp only
      rw [putAt_same, h.closed hf]
      congr 3
      refine List.map_congr_left (fun r hr => content_congr (putAt_ne _ _ (hne r hr)) (fun j hj => ?_))
      have := h.below _ _ hj
      exact putAt_ne _ _ (by omega)

theorem CuWf.moved {fn target : Str} {w w' : FileW} {rotated : List Str} {text : Str} (h : CuWf fn w rotated text)
    (hfree : w.files target = none) (hne : target ≠ fn) (hm : w.moveOnce fn target .renamed = (w', .moved)) :
    CuWf fn w' (rotated ++ [target]) text ∧ w'.files fn = none := by
  unfold FileW.moveOnce at hm
  cases hn : w.files fn with
  | none => rw [hn] at hm; simp at hm
  | some i =>
    rw [hn] at hm
    dsimp only at hm
    simp only [Prod.mk.injEq, and_true] at hm
    subst hm
    have hnt : target ∉ rotated := fun ht => h.named _ ht hfree
    have hfiles : ∀ p j, putAt (putAt w.files fn none) target (some i) p = some j →
        (p = target ∧ j = i) ∨ (p ≠ target ∧ p ≠ fn ∧ w.files p = some j) := by
      intro p j hp
      by_cases h1 : p = target
      · rw [h1, putAt_same] at hp; cases hp; exact .inl ⟨h1, rfl⟩
      · rw [putAt_ne _ _ h1] at hp
        by_cases h2 : p = fn
        · rw [h2, putAt_same] at hp; cases hp
        · rw [putAt_ne _ _ h2] at hp; exact .inr ⟨h1, h2, hp⟩
    have hfn : putAt (putAt w.files fn none) target (some i) fn = none := by
      rw [putAt_ne _ _ (Ne.symm hne), putAt_same]
    have hrf : ∀ r ∈ rotated, putAt (putAt w.files fn none) target (some i) r = w.files r := by
      intro r hr
      rw [putAt_ne _ _ (by rintro rfl; exact hnt hr), putAt_ne _ _ (by rintro rfl; exact h.notFn hr)]
    refine ⟨⟨fun p q j hp hq => ?_, fun p j hp => ?_, fun r hr => ?_, ?_, ?_, fun j hj => ?_, h.closed, ?_⟩, hfn⟩
    · rcases hfiles p j hp with ⟨rfl, rfl⟩ | ⟨_, h2, h3⟩ <;> rcases hfiles q _ hq with ⟨rfl, h4⟩ | ⟨_, h5, h6⟩
      · rfl
      · exact absurd (h.distinct _ _ _ h6 hn) h5
      · subst h4; exact absurd (h.distinct _ _ _ h3 hn) h2
      · exact h.distinct p q j h3 h6
    · rcases hfiles p j hp with ⟨rfl, rfl⟩ | ⟨_, _, h3⟩
      · exact h.below _ _ hn
      · exact h.below _ _ h3
    · dsimp only
      rcases List.mem_append.1 hr with hr | hr
      · rw [hrf r hr]; exact h.named r hr
      · rw [List.mem_singleton.1 hr, putAt_same]; exact fun e => nomatch e
    · rw [List.nodup_append]
      refine ⟨h.nodup, by simp, fun a ha b hb => ?_⟩
      rw [List.mem_singleton.1 hb]
      rintro rfl
      exact hnt ha
    · simp only [List.mem_append, List.mem_singleton, not_or]
      exact ⟨h.notFn, Ne.symm hne⟩
    · refine .inr ⟨hfn, rotated, target, rfl, ?_⟩
      dsimp only
      rw [putAt_same]
      rcases h.sync j hj with hs | ⟨hs, _⟩
      · rw [hn] at hs; exact hs
      · rw [hn] at hs; cases hs
    · rw [← h.text, List.map_append, List.flatten_append, content_none (p := fn) (by exact hfn), content_some hn]
      simp only [List.map_cons, List.map_nil, List.flatten_cons, List.flatten_nil, List.append_nil]
      rw [content_some (p := target) (i := i) (by exact putAt_same ..)]
      congr 3
      exact List.map_congr_left (fun r hr => content_congr (hrf r hr) (fun _ _ => rfl))

/-- The thread is in a block under the lock of the file wrapper. -/
def CuPc.inLock : CuPc → Bool
  | .entered _ _ => true
  | .body _ _ => true
  | .dirs _ => true
  | .closing _ => true
  | .opening _ => true
  | .ended _ _ => true
  | .exit _ _ _ => true
  | _ => false

/-- The line of the call if its fate is not settled. -/
def CuPc.pending : CuPc → Option Str
  | .idle => none
  | .before line => some line
  | .start line => some line
  | .checking line => some line
  | .enter .flush _ => none
  | .enter _ line => some line
  | .entered .flush _ => none
  | .entered _ line => some line
  | .body .flush _ => none
  | .body _ line => some line
  | .dirs line => some line
  | .closing line => some line
  | .opening line => some line
  | .ended .move line => some line
  | .ended _ _ => none
  | .exit .move line _ => some line
  | .exit _ _ _ => none

/-- What holds in every run, whatever interrupts come. -/
structure CuInv (c : FConf) (s₀ s : CuState) : Prop where
  wf : CuWf c.fn s.w s.rotated (content s₀.w c.fn ++ (linesWith .written s).flatten)
  lock : ∀ t, (s.pc t).inLock = true → s.lock = some t
  opening : ∀ t line, s.pc t = .opening line → s.w.file = none
  fates : ∀ t, ofThread t s.calls = (ofThread t s.done).map Prod.fst ++ (s.pc t).pending.toList
  cuts : (linesWith .cut s).length ≤ s.cuts

theorem CuInv.init {c : FConf} {s₀ : CuState} (h : CuStart c s₀) : CuInv c s₀ s₀ := by
  obtain ⟨i, h1, h2⟩ := h.opened
  obtain ⟨hc, hd, hr, hn⟩ := h.history
  refine ⟨⟨h.distinct, h.below, ?_, ?_, ?_, ?_, ?_, ?_⟩, ?_, ?_, ?_, ?_⟩
  · rw [hr]; exact (fun _ h => nomatch h)
  · rw [hr]; exact List.nodup_nil
  · rw [hr]; exact fun h => nomatch h
  · intro j hj; rw [h2] at hj; cases hj; exact .inl h1
  · intro e; rw [h2] at e; cases e
  · rw [hr, h.buf, linesWith, hd]; simp
  · intro t ht; rw [h.idle] at ht; cases ht
  · intro t line ht; rw [h.idle] at ht; cases ht
  · intro t; rw [hc, hd, h.idle]; rfl
  · rw [linesWith, hd]; exact Nat.zero_le _

theorem linesWith_append {s s' : CuState} {f : CuFate} {x : Nat × Str × CuFate} (h : s'.done = s.done ++ [x]) :
    linesWith f s' = linesWith f s ++ (if x.2.2 = f then [x.2.1] else []) := by
  unfold linesWith
  rw [h, List.filter_append, List.map_append]
  congr 1
  by_cases hx : x.2.2 = f <;> simp [hx]

theorem linesWith_same {s s' : CuState} (f : CuFate) (h : s'.done = s.done) : linesWith f s' = linesWith f s := by
  unfold linesWith; rw [h]

theorem ofThread_snoc {α : Type} (t u : Nat) (l : List (Nat × α)) (x : α) :
    ofThread u (l ++ [(t, x)]) = ofThread u l ++ (if t = u then [x] else []) := by
  unfold ofThread
  rw [List.filter_append, List.map_append]
  congr 1
  by_cases hx : t = u <;> simp [hx]

/-- One action of thread `t`. -/
theorem CuInv.next {c : FConf} {s₀ s s' : CuState} (h : CuInv c s₀ s) (t : Nat)
    (hu : ∀ u, u ≠ t → s'.pc u = s.pc u)
    (hwf : CuWf c.fn s'.w s'.rotated (content s₀.w c.fn ++ (linesWith .written s').flatten))
    (hl1 : (s'.pc t).inLock = true → s'.lock = some t)
    (hl2 : s'.lock = s.lock ∨ s.lock = none ∨ s.lock = some t)
    (ho1 : ∀ line, s'.pc t = .opening line → s'.w.file = none)
    (ho2 : s'.w.file = s.w.file ∨ s'.w.file = none ∨ s.lock = some t)
    (hf : (s'.calls = s.calls ∧ s'.done = s.done ∧ (s'.pc t).pending = (s.pc t).pending) ∨
      (∃ line, s'.calls = s.calls ++ [(t, line)] ∧ s'.done = s.done ∧ (s.pc t).pending = none ∧ (s'.pc t).pending = some line) ∨
      (∃ line f, s'.calls = s.calls ∧ s'.done = s.done ++ [(t, line, f)] ∧ (s.pc t).pending = some line ∧
        (s'.pc t).pending = none))
    (hc : (linesWith .cut s').length ≤ s'.cuts) : CuInv c s₀ s' := by
  refine ⟨hwf, fun u hin => ?_, fun u line hop => ?_, fun u => ?_, hc⟩
  · by_cases e : u = t
    · subst e; exact hl1 hin
    · rw [hu u e] at hin
      have := h.lock u hin
      rcases hl2 with h2 | h2 | h2
      · rw [h2, this]
      · rw [h2] at this; cases this
      · rw [h2] at this; cases this; exact absurd rfl e
  · by_cases e : u = t
    · subst e; exact ho1 line hop
    · rw [hu u e] at hop
      have h1 := h.opening u line hop
      have h2 := h.lock u (by rw [hop]; rfl)
      rcases ho2 with h3 | h3 | h3
      · rw [h3, h1]
      · exact h3
      · rw [h3] at h2; cases h2; exact absurd rfl e
  · have hfu := h.fates u
    by_cases e : u = t
    · subst e
      rcases hf with ⟨h1, h2, h3⟩ | ⟨line, h1, h2, h3, h4⟩ | ⟨line, f, h1, h2, h3, h4⟩
      · rw [h1, h2, h3]; exact hfu
      · rw [h1, h2, h4, ofThread_snoc, hfu, h3, if_pos rfl]; simp
      · rw [h1, h2, h4, ofThread_snoc, hfu, h3, if_pos rfl]; simp
    · rw [hu u e]
      rcases hf with ⟨h1, h2, _⟩ | ⟨line, h1, h2, _⟩ | ⟨line, f, h1, h2, _⟩
      · rw [h1, h2]; exact hfu
      · rw [h1, h2, ofThread_snoc, if_neg (Ne.symm e), List.append_nil]; exact hfu
      · rw [h1, h2, ofThread_snoc, if_neg (Ne.symm e), List.append_nil]; exact hfu

/-- Nothing happens but that thread `t` goes on. -/
theorem CuInv.goes {c : FConf} {s₀ s s' : CuState} (h : CuInv c s₀ s) (t : Nat) (x : CuPc)
    (hpc : s'.pc = putAt s.pc t x) (hw : s'.w = s.w) (hrot : s'.rotated = s.rotated) (hdone : s'.done = s.done)
    (hcalls : s'.calls = s.calls) (hcuts : s.cuts ≤ s'.cuts)
    (hl1 : x.inLock = true → s'.lock = some t)
    (hl2 : s'.lock = s.lock ∨ s.lock = none ∨ s.lock = some t)
    (hx : ∀ line, x ≠ .opening line) (hp : x.pending = (s.pc t).pending) : CuInv c s₀ s' := by
  refine h.next t (fun u hu => by rw [hpc, putAt_ne _ _ hu]) ?_ (by rw [hpc, putAt_same]; exact hl1) hl2
    (fun line hl => absurd (by rw [hpc, putAt_same] at hl; exact hl) (hx line)) (.inl (by rw [hw]))
    (.inl ⟨hcalls, hdone, by rw [hpc, putAt_same]; exact hp⟩) ?_
  · rw [hw, hrot, linesWith_same _ hdone]; exact h.wf
  · rw [linesWith_same _ hdone]; exact Nat.le_trans h.cuts hcuts

/-- The fate of the line of thread `t` is settled, and it was not written. -/
theorem CuInv.drop {c : FConf} {s₀ s s' : CuState} (h : CuInv c s₀ s) (t : Nat) (x : CuPc) (line : Str) (f : CuFate)
    (hfw : f ≠ .written) (hpc : s'.pc = putAt s.pc t x) (hw : s'.w = s.w) (hrot : s'.rotated = s.rotated)
    (hdone : s'.done = s.done ++ [(t, line, f)]) (hcalls : s'.calls = s.calls)
    (hcuts : s.cuts + (if f = .cut then 1 else 0) ≤ s'.cuts) (hlk : s'.lock = s.lock)
    (hl1 : x.inLock = true → s.lock = some t)
    (hx : ∀ line, x ≠ .opening line) (hp : (s.pc t).pending = some line) (hq : x.pending = none) : CuInv c s₀ s' := by
  refine h.next t (fun u hu => by rw [hpc, putAt_ne _ _ hu]) ?_ (by rw [hpc, putAt_same, hlk]; exact hl1) (.inl hlk)
    (fun line hl => absurd (by rw [hpc, putAt_same] at hl; exact hl) (hx line)) (.inl (by rw [hw]))
    (.inr (.inr ⟨line, f, hcalls, hdone, hp, by rw [hpc, putAt_same]; exact hq⟩)) ?_
  · rw [hw, hrot, linesWith_append hdone, if_neg hfw, List.append_nil]; exact h.wf
  · rw [linesWith_append hdone, List.length_append]
    have := h.cuts
    by_cases hf : f = .cut <;> simp [hf] at hcuts ⊢ <;> omega

theorem write_file {w w' : FileW} {line : Str} {auto : Nat} (h : w.write line auto = some w') : w'.file = w.file := by
  unfold FileW.write at h
  cases hf : w.file with
  | none => rw [hf] at h; cases h
  | some i => rw [hf] at h; cases h; rfl

theorem flush_file {w w' : FileW} (h : w.flush = some w') : w'.file = w.file := by
  unfold FileW.flush at h
  cases hf : w.file with
  | none => rw [hf] at h; cases h
  | some i => rw [hf] at h; cases h; rfl

theorem moveOnce_file {w w' : FileW} {fn target : Str} (h : w.moveOnce fn target .renamed = (w', .moved)) :
    w'.file = w.file := by
  unfold FileW.moveOnce at h
  cases hf : w.files fn with
  | none => rw [hf] at h; simp at h
  | some i => rw [hf] at h; simp at h; rw [← h]

theorem CuInv.step {c : FConf} {s₀ s s' : CuState} {t : Nat} (h : CuInv c s₀ s) (hs : CuStep c t s s') : CuInv c s₀ s' := by
  have hlk := h.lock t
  cases hs with
  | call line ht hi =>
    refine h.next t (fun u hu => putAt_ne _ _ hu) ?_ ?_ (.inl rfl) ?_ (.inl rfl) (.inr (.inl ⟨line, rfl, rfl, ?_, ?_⟩)) ?_
    · exact h.wf
    · intro e; simp only [CuState.go, putAt_same] at e; cases e
    · intro l e; simp only [CuState.go, putAt_same] at e; cases e
    · rw [hi]; rfl
    · simp only [CuState.go, putAt_same]; rfl
    · exact h.cuts
  | rotation line hi =>
    exact h.goes t _ rfl rfl rfl rfl rfl (Nat.le_refl _) (fun e => nomatch e) (.inl rfl) (fun _ e => nomatch e) (by rw [hi]; rfl)
  | lockRot line hi hr =>
    exact h.goes t _ rfl rfl rfl rfl rfl (Nat.le_refl _) (fun e => nomatch e) (.inl rfl) (fun _ e => nomatch e) (by rw [hi]; rfl)
  | fire line n hi hn hf =>
    exact h.goes t _ rfl rfl rfl rfl rfl (Nat.le_refl _) (fun e => nomatch e) (.inl rfl) (fun _ e => nomatch e) (by rw [hi]; rfl)
  | pass line hi hn =>
    exact h.goes t _ rfl rfl rfl rfl rfl (Nat.le_refl _) (fun e => nomatch e) (.inl rfl) (fun _ e => nomatch e) (by rw [hi]; rfl)
  | acquire o line hi hl =>
    exact h.goes t _ rfl rfl rfl rfl rfl (Nat.le_refl _) (fun _ => rfl) (.inr (.inl hl)) (fun _ e => nomatch e)
      (by rw [hi]; cases o <;> rfl)
  | into o line hi =>
    exact h.goes t _ rfl rfl rfl rfl rfl (Nat.le_refl _) (fun _ => hlk (by rw [hi]; rfl)) (.inl rfl) (fun _ e => nomatch e)
      (by rw [hi]; cases o <;> rfl)
  | moved line target w' hi hfree hne hm =>
    have hin : (s.pc t).inLock = true := by rcases hi with hi | hi <;> rw [hi] <;> rfl
    have hpd : (s.pc t).pending = some line := by rcases hi with hi | hi <;> rw [hi] <;> rfl
    refine h.next t (fun u hu => putAt_ne _ _ hu) ?_ ?_ (.inl rfl) ?_ (.inl (moveOnce_file hm)) (.inl ⟨rfl, rfl, ?_⟩) ?_
    · exact (h.wf.moved hfree hne hm).1
    · exact fun _ => hlk hin
    · intro l e; simp only [CuState.go, putAt_same] at e; cases e
    · rw [hpd]; simp only [CuState.go, putAt_same]; rfl
    · exact h.cuts
  | notFound line hi hn =>
    exact h.goes t _ rfl rfl rfl rfl rfl (Nat.le_refl _) (fun _ => hlk (by rw [hi]; rfl)) (.inl rfl) (fun _ e => nomatch e)
      (by rw [hi]; rfl)
  | moveFails line hi hn =>
    have hin : (s.pc t).inLock = true := by rcases hi with hi | hi <;> rw [hi] <;> rfl
    have hpd : (s.pc t).pending = some line := by rcases hi with hi | hi <;> rw [hi] <;> rfl
    exact h.goes t _ rfl rfl rfl rfl rfl (Nat.le_refl _) (fun _ => hlk hin) (.inl rfl) (fun _ e => nomatch e) (by rw [hpd]; rfl)
  | close line hi =>
    refine h.next t (fun u hu => putAt_ne _ _ hu) ?_ ?_ (.inl rfl) ?_ (.inr (.inl h.wf.close.2)) (.inl ⟨rfl, rfl, ?_⟩) ?_
    · exact h.wf.close.1
    · exact fun _ => hlk (by rw [hi]; rfl)
    · exact fun l _ => h.wf.close.2
    · rw [hi]; simp only [CuState.go, putAt_same]; rfl
    · exact h.cuts
  | opened line hi =>
    refine h.next t (fun u hu => putAt_ne _ _ hu) ?_ ?_ (.inl rfl) ?_ (.inr (.inr (hlk (by rw [hi]; rfl)))) (.inl ⟨rfl, rfl, ?_⟩) ?_
    · exact h.wf.open (h.opening t line hi)
    · exact fun _ => hlk (by rw [hi]; rfl)
    · intro l e; simp only [CuState.go, putAt_same] at e; cases e
    · rw [hi]; simp only [CuState.go, putAt_same]; rfl
    · exact h.cuts
  | openFails line hi hr =>
    exact h.goes t _ rfl rfl rfl rfl rfl (Nat.le_refl _) (fun _ => hlk (by rw [hi]; rfl)) (.inl rfl) (fun _ e => nomatch e)
      (by rw [hi]; rfl)
  | write line auto w' hi hw =>
    refine h.next t (fun u hu => putAt_ne _ _ hu) ?_ ?_ (.inl rfl) ?_ (.inl (write_file hw))
      (.inr (.inr ⟨line, .written, rfl, rfl, ?_, ?_⟩)) ?_
    · rw [linesWith_append (s := s) (x := (t, line, .written)) rfl, if_pos rfl, List.flatten_append, ← List.append_assoc]
      have := h.wf.write hw
      show CuWf c.fn w' s.rotated _
      simpa using this
    · exact fun _ => hlk (by rw [hi]; rfl)
    · intro l e; simp only [CuState.go, putAt_same] at e; cases e
    · rw [hi]; rfl
    · simp only [CuState.go, putAt_same]; rfl
    · rw [linesWith_append (s := s) (x := (t, line, .written)) rfl]
      show _ ≤ s.cuts
      simpa using h.cuts
  | writeFails line hi hf =>
    exact h.drop t _ line .failed (fun e => nomatch e) rfl rfl rfl rfl rfl (Nat.le_refl _) rfl (fun _ => hlk (by rw [hi]; rfl))
      (fun _ e => nomatch e) (by rw [hi]; rfl) rfl
  | spill line auto w' hi hw =>
    refine h.next t (fun u hu => rfl) ?_ hlk (.inl rfl) ?_ (.inl (write_file hw)) (.inl ⟨rfl, rfl, rfl⟩) h.cuts
    · have := h.wf.write hw
      rw [List.append_nil] at this
      exact this
    · intro l e; dsimp only at e; rw [hi] at e; cases e
  | flush line w' hi hw =>
    refine h.next t (fun u hu => putAt_ne _ _ hu) ?_ ?_ (.inl rfl) ?_ (.inl (flush_file hw)) (.inl ⟨rfl, rfl, ?_⟩) h.cuts
    · exact h.wf.flush hw
    · exact fun _ => hlk (by rw [hi]; rfl)
    · intro l e; simp only [CuState.go, putAt_same] at e; cases e
    · rw [hi]; simp only [CuState.go, putAt_same]; rfl
  | flushFails line hi hf =>
    exact h.goes t _ rfl rfl rfl rfl rfl (Nat.le_refl _) (fun _ => hlk (by rw [hi]; rfl)) (.inl rfl) (fun _ e => nomatch e)
      (by rw [hi]; rfl)
  | leave o line hi =>
    exact h.goes t _ rfl rfl rfl rfl rfl (Nat.le_refl _) (fun _ => hlk (by rw [hi]; rfl)) (.inl rfl) (fun _ e => nomatch e)
      (by rw [hi]; cases o <;> rfl)
  | release o line raised hi =>
    have hl := hlk (by rw [hi]; rfl)
    cases o with
    | move => exact h.goes t _ rfl rfl rfl rfl rfl (Nat.le_refl _) (fun e => nomatch e) (.inr (.inr hl)) (fun _ e => nomatch e) (by rw [hi]; rfl)
    | write =>
      refine h.goes t (if c.forced && !raised then .enter .flush line else .idle) rfl rfl rfl rfl rfl (Nat.le_refl _) ?_ (.inr (.inr hl)) ?_ ?_
      · split <;> exact fun e => nomatch e
      · split <;> exact fun _ e => nomatch e
      · rw [hi]; split <;> rfl
    | flush => exact h.goes t _ rfl rfl rfl rfl rfl (Nat.le_refl _) (fun e => nomatch e) (.inr (.inr hl)) (fun _ e => nomatch e) (by rw [hi]; rfl)

theorem CuInv.interrupted {c : FConf} {s₀ s : CuState} (h : CuInv c s₀ s) : CuInv c s₀ s.interrupt := by
  have hlk := h.lock 0
  have hle : s.cuts ≤ s.cuts + 1 := Nat.le_succ _
  unfold CuState.interrupt
  dsimp only
  cases hi : s.pc 0 with
  | idle => exact ⟨h.wf, h.lock, h.opening, h.fates, Nat.le_trans h.cuts hle⟩
  | before line =>
    exact h.drop 0 _ line .cut (fun e => nomatch e) rfl rfl rfl rfl rfl (Nat.le_refl _) rfl (fun e => nomatch e)
      (fun _ e => nomatch e) (by rw [hi]; rfl) rfl
  | start line =>
    exact h.goes 0 _ rfl rfl rfl rfl rfl hle (fun e => nomatch e) (.inl rfl) (fun _ e => nomatch e) (by rw [hi]; rfl)
  | checking line =>
    exact h.goes 0 _ rfl rfl rfl rfl rfl hle (fun e => nomatch e) (.inl rfl) (fun _ e => nomatch e) (by rw [hi]; rfl)
  | enter o line =>
    cases o with
    | write =>
      exact h.drop 0 _ line .cut (fun e => nomatch e) rfl rfl rfl rfl rfl (Nat.le_refl _) rfl (fun e => nomatch e)
        (fun _ e => nomatch e) (by rw [hi]; rfl) rfl
    | move => exact h.goes 0 _ rfl rfl rfl rfl rfl hle (fun e => nomatch e) (.inl rfl) (fun _ e => nomatch e) (by rw [hi]; rfl)
    | flush => exact h.goes 0 _ rfl rfl rfl rfl rfl hle (fun e => nomatch e) (.inl rfl) (fun _ e => nomatch e) (by rw [hi]; rfl)
  | entered o line =>
    cases o with
    | write =>
      exact h.drop 0 _ line .cut (fun e => nomatch e) rfl rfl rfl rfl rfl (Nat.le_refl _) rfl (fun e => nomatch e)
        (fun _ e => nomatch e) (by rw [hi]; rfl) rfl
    | move => exact h.goes 0 _ rfl rfl rfl rfl rfl hle (fun e => nomatch e) (.inl rfl) (fun _ e => nomatch e) (by rw [hi]; rfl)
    | flush => exact h.goes 0 _ rfl rfl rfl rfl rfl hle (fun e => nomatch e) (.inl rfl) (fun _ e => nomatch e) (by rw [hi]; rfl)
  | body o line =>
    have hl := hlk (by rw [hi]; rfl)
    cases o with
    | write =>
      exact h.drop 0 _ line .cut (fun e => nomatch e) rfl rfl rfl rfl rfl (Nat.le_refl _) rfl (fun _ => hl)
        (fun _ e => nomatch e) (by rw [hi]; rfl) rfl
    | move => exact h.goes 0 _ rfl rfl rfl rfl rfl hle (fun _ => hl) (.inl rfl) (fun _ e => nomatch e) (by rw [hi]; rfl)
    | flush => exact h.goes 0 _ rfl rfl rfl rfl rfl hle (fun _ => hl) (.inl rfl) (fun _ e => nomatch e) (by rw [hi]; rfl)
  | dirs line =>
    exact h.goes 0 _ rfl rfl rfl rfl rfl hle (fun _ => hlk (by rw [hi]; rfl)) (.inl rfl) (fun _ e => nomatch e) (by rw [hi]; rfl)
  | closing line =>
    exact h.goes 0 _ rfl rfl rfl rfl rfl hle (fun _ => hlk (by rw [hi]; rfl)) (.inl rfl) (fun _ e => nomatch e) (by rw [hi]; rfl)
  | opening line =>
    exact h.goes 0 _ rfl rfl rfl rfl rfl hle (fun _ => hlk (by rw [hi]; rfl)) (.inl rfl) (fun _ e => nomatch e) (by rw [hi]; rfl)
  | ended o line =>
    exact h.goes 0 _ rfl rfl rfl rfl rfl hle (fun _ => hlk (by rw [hi]; rfl)) (.inl rfl) (fun _ e => nomatch e)
      (by rw [hi]; cases o <;> rfl)
  | exit o line r =>
    cases o with
    | move => exact h.goes 0 _ rfl rfl rfl rfl rfl hle (fun e => nomatch e) (.inl rfl) (fun _ e => nomatch e) (by rw [hi]; rfl)
    | write => exact h.goes 0 _ rfl rfl rfl rfl rfl hle (fun e => nomatch e) (.inl rfl) (fun _ e => nomatch e) (by rw [hi]; rfl)
    | flush => exact h.goes 0 _ rfl rfl rfl rfl rfl hle (fun e => nomatch e) (.inl rfl) (fun _ e => nomatch e) (by rw [hi]; rfl)

theorem CuRun.inv {c : FConf} {mild : Bool} {s₀ s : CuState} (h₀ : CuStart c s₀) (h : CuRun c mild s₀ s) : CuInv c s₀ s := by
  induction h with
  | init => exact .init h₀
  | step t _ hs ih => exact ih.step hs
  | cut _ _ _ ih => exact ih.interrupted

end Polog
