import Verif.File.Lemmas
import Verif.File.ProcsSpec
import Mathlib.Tactic.Convert

/-! Invariant of processes that fork. -/

namespace Polog

/-- The number of the line that the thread has written and not yet flushed. -/
def PrPc.num : PrPc → Option Nat
  | .flushing k => some k
  | .inFlush k => some k
  | _ => none

/-- A file that will not be forgotten. -/
def PrState.Named (s : PrState) (fn : Str) (i : Nat) : Prop :=
  ∃ name, s.files name = some i ∧ (name = fn ∨ name ∈ s.rotated)

/-- The lines with these numbers. -/
def PrState.lines (s : PrState) (ks : List Nat) : Str := (ks.map fun k => s.written.getD k []).flatten

/-- `placed`: the lines on disk; `wait p`: the lines in the buffer of `p`. -/
structure PrInv (c : PrConf) (s₀ s : PrState) (placed : List (Nat × Nat)) (wait : Nat → List Nat) : Prop where
  data : ∀ i, s.data i = s₀.data i ++
    ((placed.filter (fun x => x.1 = i)).map (fun x => s.written.getD x.2 [])).flatten
  buf : ∀ p, s.buf p = s.lines (wait p)
  ltPlaced : ∀ x ∈ placed, x.2 < s.written.length
  ltWait : ∀ p, ∀ k ∈ wait p, k < s.written.length
  nodup : (placed.map Prod.snd).Nodup
  nodupWait : ∀ p, (wait p).Nodup
  apart : ∀ p, ∀ k ∈ wait p, k ∉ placed.map Prod.snd
  apartWait : ∀ p q k, k ∈ wait p → k ∈ wait q → p = q
  named : ∀ x ∈ placed, s.Named c.fn x.1
  fd : ∀ p i, s.fd p = some i → s.Named c.fn i
  below : ∀ n i, s.files n = some i → i < s.fresh
  unused : ∀ i, s.fresh ≤ i → s.data i = []
  noFile : ∀ p, s.fd p = none → wait p = []
  flush : ∀ p t k, (s.pc p t).num = some k → k ∈ wait p ∨ k ∈ placed.map Prod.snd
  back : ∀ p, ∀ k ∈ wait p, ∃ t, (s.pc p t).num = some k
  fin : ∀ k ∈ s.finished, k ∈ placed.map Prod.snd
  numbers : ∀ p, s.used p = false → ∀ t, s.pc p t = .absent

theorem putAt_putAt {α β : Type} [DecidableEq α] (f : α → β) (a : α) (b b' : β) :
    putAt (putAt f a b) a b' = putAt f a b' := by
  funext x
  unfold putAt
  split <;> rfl

theorem pr_pc_go (s : PrState) (p t : Nat) (x : PrPc) (p' t' : Nat) :
    (s.go p t x).pc p' t' = if p' = p ∧ t' = t then x else s.pc p' t' := by
  unfold PrState.go putAt
  dsimp only
  by_cases hp : p' = p
  · subst hp
    by_cases ht : t' = t <;> simp [ht]
  · simp [hp]

theorem PrInv.locks {c : PrConf} {s₀ s : PrState} {placed : List (Nat × Nat)} {wait : Nat → List Nat}
    (h : PrInv c s₀ s placed wait) (l r : Nat → Option Nat) :
    PrInv c s₀ { s with lock := l, rotLock := r } placed wait :=
  ⟨h.data, h.buf, h.ltPlaced, h.ltWait, h.nodup, h.nodupWait, h.apart, h.apartWait, h.named, h.fd, h.below,
    h.unused, h.noFile, h.flush, h.back, h.fin, h.numbers⟩

/-- A thread of a process goes on and the line it has written and not flushed stays the same. -/
theorem PrInv.go {c : PrConf} {s₀ s : PrState} {placed : List (Nat × Nat)} {wait : Nat → List Nat}
    (h : PrInv c s₀ s placed wait) (p t : Nat) (x : PrPc) (hx : x.num = (s.pc p t).num)
    (hu : s.used p = true) : PrInv c s₀ (s.go p t x) placed wait := by
  have key : ∀ p' t', ((s.go p t x).pc p' t').num = (s.pc p' t').num := by
    intro p' t'
    rw [pr_pc_go]
    split
    · rename_i e; rw [e.1, e.2, hx]
    · rfl
  refine ⟨h.data, h.buf, h.ltPlaced, h.ltWait, h.nodup, h.nodupWait, h.apart, h.apartWait, h.named, h.fd,
    h.below, h.unused, h.noFile, fun p' t' k hk => ?_, fun p' k hk => ?_, h.fin, fun p' hp' t' => ?_⟩
  · rw [key] at hk; exact h.flush p' t' k hk
  · obtain ⟨t', ht'⟩ := h.back p' k hk
    exact ⟨t', by rw [key]; exact ht'⟩
  · rw [pr_pc_go, if_neg]
    · exact h.numbers p' hp' t'
    · rintro ⟨rfl, _⟩
      rw [show s.used p' = false from hp'] at hu
      cases hu

theorem PrInv.used {c : PrConf} {s₀ s : PrState} {placed : List (Nat × Nat)} {wait : Nat → List Nat}
    (h : PrInv c s₀ s placed wait) {p t : Nat} (ht : s.pc p t ≠ .absent) : s.used p = true := by
  cases hu : s.used p with
  | true => rfl
  | false => exact absurd (h.numbers p hu t) ht

theorem PrInv.quiet {c : PrConf} {s₀ s : PrState} {placed : List (Nat × Nat)} {wait : Nat → List Nat}
    (h : PrInv c s₀ s placed wait) {p : Nat} (hq : ∀ t, (s.pc p t).num = none) : wait p = [] := by
  cases hw : wait p with
  | nil => rfl
  | cons k ks =>
    obtain ⟨t, ht⟩ := h.back p k (by simp [hw])
    rw [hq] at ht; cases ht

/-- The buffer of process `p` is given to the system, if `p` has its file open. -/
theorem PrInv.spill {c : PrConf} {s₀ s : PrState} {placed : List (Nat × Nat)} {wait : Nat → List Nat}
    (h : PrInv c s₀ s placed wait) (p i : Nat) (hf : s.fd p = some i) :
    PrInv c s₀ { s with data := putAt s.data i (s.data i ++ s.buf p), buf := putAt s.buf p [] }
      (placed ++ (wait p).map fun k => (i, k)) (putAt wait p []) := by
  have hnums : (placed ++ (wait p).map fun k => (i, k)).map Prod.snd = placed.map Prod.snd ++ wait p := by
    rw [List.map_append, List.map_map]
    congr 1
    simp [Function.comp_def]
  have hsub : ∀ q k, k ∈ putAt wait p [] q → k ∈ wait q ∧ q ≠ p := by
    intro q k hk
    by_cases hq : q = p
    · subst hq; rw [putAt_same] at hk; cases hk
    · rw [putAt_ne _ _ hq] at hk; exact ⟨hk, hq⟩
  refine ⟨fun j => ?_, fun q => ?_, fun x hx => ?_, fun q k hk => h.ltWait q k (hsub q k hk).1, ?_,
    fun q => ?_, fun q k hk => ?_, fun q q' k hk hk' => h.apartWait q q' k (hsub q k hk).1 (hsub q' k hk').1,
    fun x hx => ?_, h.fd, h.below, fun j hj => ?_, fun q hq => ?_, fun q t k hk => ?_, fun q k hk => ?_,
    fun k hk => ?_, h.numbers⟩
  · dsimp only
    rw [List.filter_append, List.map_append, List.flatten_append, ← List.append_assoc, ← h.data j]
    by_cases hj : j = i
    · subst hj
      rw [putAt_same, h.buf p]
      congr 1
      unfold PrState.lines
      rw [List.filter_eq_self.2, List.map_map]
      · rfl
      · intro x hx
        obtain ⟨k, _, rfl⟩ := List.mem_map.1 hx
        simp
    · rw [putAt_ne _ _ hj]
      have : ((wait p).map fun k => (i, k)).filter (fun x => decide (x.1 = j)) = [] := by
        rw [List.filter_eq_nil_iff]
        intro x hx
        obtain ⟨k, _, rfl⟩ := List.mem_map.1 hx
        simpa using Ne.symm hj
      rw [this]; simp
  · dsimp only
    by_cases hq : q = p
    · subst hq; rw [putAt_same, putAt_same]; rfl
    · rw [putAt_ne _ _ hq, putAt_ne _ _ hq, h.buf q]; rfl
  · rcases List.mem_append.1 hx with hx | hx
    · exact h.ltPlaced x hx
    · obtain ⟨k, hk, rfl⟩ := List.mem_map.1 hx
      exact h.ltWait p k hk
  · rw [hnums]
    exact List.nodup_append.2 ⟨h.nodup, h.nodupWait p, fun a ha b hb e => h.apart p b hb (e ▸ ha)⟩
  · by_cases hq : q = p
    · subst hq; rw [putAt_same]; exact List.nodup_nil
    · rw [putAt_ne _ _ hq]; exact h.nodupWait q
  · rw [hnums, List.mem_append]
    obtain ⟨h1, h2⟩ := hsub q k hk
    rintro (h3 | h3)
    · exact h.apart q k h1 h3
    · exact h2 (h.apartWait q p k h1 h3)
  · rcases List.mem_append.1 hx with hx | hx
    · exact h.named x hx
    · obtain ⟨k, hk, rfl⟩ := List.mem_map.1 hx
      exact h.fd p i hf
  · dsimp only at hj ⊢
    obtain ⟨n, h1, _⟩ := h.fd p i hf
    have := h.below n i h1
    rw [putAt_ne _ _ (by omega)]
    exact h.unused j hj
  · by_cases hqp : q = p
    · subst hqp; rw [putAt_same]
    · rw [putAt_ne _ _ hqp]; exact h.noFile q hq
  · rw [hnums, List.mem_append]
    rcases h.flush q t k hk with h1 | h1
    · by_cases hq : q = p
      · subst hq; exact .inr (.inr h1)
      · rw [putAt_ne _ _ hq]; exact .inl h1
    · exact .inr (.inl h1)
  · exact h.back q k (hsub q k hk).1
  · rw [hnums, List.mem_append]; exact .inl (h.fin k hk)

/-- A process closes its file with an empty buffer, or loses its file and its threads. -/
theorem PrInv.lose {c : PrConf} {s₀ s : PrState} {placed : List (Nat × Nat)} {wait : Nat → List Nat}
    (h : PrInv c s₀ s placed wait) (p : Nat) (f : Nat → PrPc)
    (hf : ∀ t k, (f t).num = some k → (s.pc p t).num = some k ∧ wait p = [])
    (ha : s.used p = false → ∀ t, f t = .absent) :
    PrInv c s₀ { s with fd := putAt s.fd p none, buf := putAt s.buf p [], pc := putAt s.pc p f }
      placed (putAt wait p []) := by
  have hsub : ∀ q k, k ∈ putAt wait p [] q → k ∈ wait q ∧ q ≠ p := by
    intro q k hk
    by_cases hq : q = p
    · subst hq; rw [putAt_same] at hk; cases hk
    · rw [putAt_ne _ _ hq] at hk; exact ⟨hk, hq⟩
  refine ⟨h.data, fun q => ?_, h.ltPlaced, fun q k hk => h.ltWait q k (hsub q k hk).1, h.nodup, fun q => ?_,
    fun q k hk => h.apart q k (hsub q k hk).1,
    fun q q' k hk hk' => h.apartWait q q' k (hsub q k hk).1 (hsub q' k hk').1,
    h.named, fun q i hq => ?_, h.below, h.unused, fun q hq => ?_, fun q t k hk => ?_, fun q k hk => ?_,
    h.fin, fun q hq t => ?_⟩
  · dsimp only
    by_cases hq : q = p
    · subst hq; rw [putAt_same, putAt_same]; rfl
    · rw [putAt_ne _ _ hq, putAt_ne _ _ hq, h.buf q]; rfl
  · by_cases hq : q = p
    · subst hq; rw [putAt_same]; exact List.nodup_nil
    · rw [putAt_ne _ _ hq]; exact h.nodupWait q
  · dsimp only at hq
    by_cases hqp : q = p
    · subst hqp; rw [putAt_same] at hq; cases hq
    · rw [putAt_ne _ _ hqp] at hq; exact h.fd q i hq
  · dsimp only at hq
    by_cases hqp : q = p
    · subst hqp; rw [putAt_same]
    · rw [putAt_ne _ _ hqp] at hq ⊢; exact h.noFile q hq
  · dsimp only at hk
    by_cases hq : q = p
    · subst hq
      rw [putAt_same] at hk
      obtain ⟨h1, h2⟩ := hf t k hk
      rcases h.flush q t k h1 with h3 | h3
      · rw [h2] at h3; cases h3
      · exact .inr h3
    · rw [putAt_ne _ _ hq] at hk ⊢; exact h.flush q t k hk
  · obtain ⟨h1, h2⟩ := hsub q k hk
    obtain ⟨t, ht⟩ := h.back q k h1
    refine ⟨t, ?_⟩
    dsimp only
    rw [putAt_ne _ _ h2]; exact ht
  · dsimp only at hq ⊢
    by_cases hqp : q = p
    · subst hqp; rw [putAt_same]; exact ha hq t
    · rw [putAt_ne _ _ hqp]; exact h.numbers q hq t

theorem PrInv.usedTrue {c : PrConf} {s₀ s : PrState} {placed : List (Nat × Nat)} {wait : Nat → List Nat}
    (h : PrInv c s₀ s placed wait) (p : Nat) :
    PrInv c s₀ { s with used := putAt s.used p true } placed wait := by
  refine ⟨h.data, h.buf, h.ltPlaced, h.ltWait, h.nodup, h.nodupWait, h.apart, h.apartWait, h.named, h.fd,
    h.below, h.unused, h.noFile, h.flush, h.back, h.fin, fun q hq t => ?_⟩
  dsimp only at hq
  by_cases hqp : q = p
  · subst hqp; rw [putAt_same] at hq; cases hq
  · rw [putAt_ne _ _ hqp] at hq; exact h.numbers q hq t

/-- A process that waits for nothing gets other threads. -/
theorem PrInv.pcs {c : PrConf} {s₀ s : PrState} {placed : List (Nat × Nat)} {wait : Nat → List Nat}
    (h : PrInv c s₀ s placed wait) (p : Nat) (f : Nat → PrPc) (hf : ∀ t, (f t).num = none)
    (hw : wait p = []) (hu : s.used p = true) :
    PrInv c s₀ { s with pc := putAt s.pc p f } placed wait := by
  refine ⟨h.data, h.buf, h.ltPlaced, h.ltWait, h.nodup, h.nodupWait, h.apart, h.apartWait, h.named, h.fd,
    h.below, h.unused, h.noFile, fun q t k hk => ?_, fun q k hk => ?_, h.fin, fun q hq t => ?_⟩
  · dsimp only at hk
    by_cases hqp : q = p
    · subst hqp; rw [putAt_same, hf] at hk; cases hk
    · rw [putAt_ne _ _ hqp] at hk; exact h.flush q t k hk
  · by_cases hqp : q = p
    · subst hqp; rw [hw] at hk; cases hk
    · obtain ⟨t, ht⟩ := h.back q k hk
      refine ⟨t, ?_⟩
      dsimp only
      rw [putAt_ne _ _ hqp]; exact ht
  · dsimp only at hq ⊢
    by_cases hqp : q = p
    · subst hqp; rw [hu] at hq; cases hq
    · rw [putAt_ne _ _ hqp]; exact h.numbers q hq t

/-- A process that has no open file opens a file with a name that is kept. -/
theorem PrInv.fdSet {c : PrConf} {s₀ s : PrState} {placed : List (Nat × Nat)} {wait : Nat → List Nat}
    (h : PrInv c s₀ s placed wait) (p : Nat) (x : Option Nat) (hx : ∀ i, x = some i → s.Named c.fn i)
    (hw : wait p = []) : PrInv c s₀ { s with fd := putAt s.fd p x } placed wait := by
  refine ⟨h.data, h.buf, h.ltPlaced, h.ltWait, h.nodup, h.nodupWait, h.apart, h.apartWait, h.named,
    fun q i hq => ?_, h.below, h.unused, fun q hq => ?_, h.flush, h.back, h.fin, h.numbers⟩
  · dsimp only at hq
    by_cases hqp : q = p
    · subst hqp; rw [putAt_same] at hq; exact hx i hq
    · rw [putAt_ne _ _ hqp] at hq; exact h.fd q i hq
  · dsimp only at hq
    by_cases hqp : q = p
    · subst hqp; exact hw
    · rw [putAt_ne _ _ hqp] at hq; exact h.noFile q hq

/-- The file of the log is created. -/
theorem PrInv.create {c : PrConf} {s₀ s : PrState} {placed : List (Nat × Nat)} {wait : Nat → List Nat}
    (h : PrInv c s₀ s placed wait) (hn : s.files c.fn = none) :
    PrInv c s₀ { s with files := putAt s.files c.fn (some s.fresh), data := putAt s.data s.fresh [],
                        fresh := s.fresh + 1 } placed wait := by
  have hd : putAt s.data s.fresh [] = s.data := by
    rw [← h.unused s.fresh (Nat.le_refl _), putAt_self]
  have hk : ∀ j, s.Named c.fn j →
      ∃ name, putAt s.files c.fn (some s.fresh) name = some j ∧ (name = c.fn ∨ name ∈ s.rotated) := by
    rintro j ⟨name, h1, h2⟩
    refine ⟨name, ?_, h2⟩
    rw [putAt_ne, h1]
    rintro rfl
    rw [hn] at h1; cases h1
  rw [hd]
  refine ⟨h.data, h.buf, h.ltPlaced, h.ltWait, h.nodup, h.nodupWait, h.apart, h.apartWait,
    fun x hx => hk _ (h.named x hx), fun q i hq => hk _ (h.fd q i hq), fun n i hi => ?_,
    fun i hi => h.unused i (by dsimp only at hi; omega), h.noFile, h.flush, h.back, h.fin, h.numbers⟩
  dsimp only at hi ⊢
  by_cases hne : n = c.fn
  · subst hne; rw [putAt_same] at hi; cases hi; omega
  · rw [putAt_ne _ _ hne] at hi; have := h.below n i hi; omega

/-- `open` in a process that has no open file. -/
theorem PrInv.opened {c : PrConf} {s₀ s : PrState} {placed : List (Nat × Nat)} {wait : Nat → List Nat}
    (h : PrInv c s₀ s placed wait) (p : Nat) (ok : Bool) (hf : s.fd p = none) :
    PrInv c s₀ (s.put p (FileW.open (s.view p) c.fn ok)) placed wait := by
  have hw := h.noFile p hf
  have hb : putAt s.buf p (s.buf p) = s.buf := putAt_self _ _
  have hfd : putAt s.fd p (s.fd p) = s.fd := putAt_self _ _
  unfold FileW.open PrState.put PrState.view
  dsimp only
  cases ok with
  | false =>
    rw [if_neg (by simp)]
    dsimp only
    rw [hb, hfd]; exact h
  | true =>
    rw [if_pos rfl]
    cases hfn : s.files c.fn with
    | some i =>
      dsimp only
      rw [hb]
      exact h.fdSet p (some i) (fun j hj => by cases hj; exact ⟨c.fn, hfn, .inl rfl⟩) hw
    | none =>
      dsimp only
      rw [hb]
      exact (h.create hfn).fdSet p (some s.fresh)
        (fun j hj => by cases hj; exact ⟨c.fn, putAt_same _ _ _, .inl rfl⟩) hw

theorem PrInv.moved {c : PrConf} {s₀ s : PrState} {placed : List (Nat × Nat)} {wait : Nat → List Nat}
    (h : PrInv c s₀ s placed wait) (p : Nat) (target : Str) (w' : FileW) (ht : s.files target = none)
    (hm : (s.view p).moveOnce c.fn target .renamed = (w', .moved)) :
    PrInv c s₀ { s.put p w' with rotated := s.rotated ++ [target] } placed wait := by
  unfold FileW.moveOnce PrState.view at hm
  dsimp only at hm
  cases hf : s.files c.fn with
  | none => rw [hf] at hm; cases hm
  | some i =>
    rw [hf] at hm
    cases hm
    unfold PrState.put
    dsimp only
    rw [putAt_self, putAt_self]
    have hn : ∀ j, s.Named c.fn j →
        ∃ name, putAt (putAt s.files c.fn none) target (some i) name = some j ∧
          (name = c.fn ∨ name ∈ s.rotated ++ [target]) := by
      rintro j ⟨name, h1, h2⟩
      by_cases hname : name = c.fn
      · subst hname
        rw [hf] at h1
        cases h1
        exact ⟨target, putAt_same _ _ _, .inr (by simp)⟩
      · refine ⟨name, ?_, .inr ?_⟩
        · rw [putAt_ne, putAt_ne _ _ hname, h1]
          rintro rfl
          rw [ht] at h1; cases h1
        · rcases h2 with h2 | h2
          · exact absurd h2 hname
          · simp [h2]
    refine ⟨h.data, h.buf, h.ltPlaced, h.ltWait, h.nodup, h.nodupWait, h.apart, h.apartWait,
      fun x hx => hn _ (h.named x hx), fun q j hq => hn _ (h.fd q j hq), fun n j hj => ?_,
      h.unused, h.noFile, h.flush, h.back, h.fin, h.numbers⟩
    dsimp only at hj ⊢
    by_cases h1 : n = target
    · subst h1; rw [putAt_same] at hj; cases hj; exact h.below _ _ hf
    · rw [putAt_ne _ _ h1] at hj
      by_cases h2 : n = c.fn
      · subst h2; rw [putAt_same] at hj; cases hj
      · rw [putAt_ne _ _ h2] at hj; exact h.below _ _ hj

theorem PrInv.close {c : PrConf} {s₀ s : PrState} {placed : List (Nat × Nat)} {wait : Nat → List Nat}
    (h : PrInv c s₀ s placed wait) (p : Nat) :
    ∃ placed' wait', PrInv c s₀ (s.put p (s.view p).close) placed' wait' ∧ wait' p = [] := by
  unfold FileW.close PrState.view PrState.put
  dsimp only
  cases hf : s.fd p with
  | none =>
    dsimp only
    refine ⟨placed, wait, ?_, h.noFile p hf⟩
    rw [putAt_self, ← hf, putAt_self]
    exact h
  | some i =>
    dsimp only
    refine ⟨_, _, (h.spill p i hf).fdSet p none (fun j hj => (nomatch hj)) (putAt_same _ _ _), putAt_same _ _ _⟩

theorem PrInv.written {c : PrConf} {s₀ s : PrState} {placed : List (Nat × Nat)} {wait : Nat → List Nat}
    (h : PrInv c s₀ s placed wait) (p t i : Nat) (line : Str) (hf : s.fd p = some i)
    (hp : (s.pc p t).num = none) (hu : s.used p = true) :
    PrInv c s₀ ({ s with buf := putAt s.buf p (s.buf p ++ line), written := s.written ++ [line] }.go p t
      (.flushing s.written.length)) placed (putAt wait p (wait p ++ [s.written.length])) := by
  have hold : ∀ k, k < s.written.length → (s.written ++ [line]).getD k [] = s.written.getD k [] := by
    intro k hk
    simp [List.getD, List.getElem?_append_left hk]
  have hnew : (s.written ++ [line]).getD s.written.length [] = line := by simp [List.getD]
  have hfresh : s.written.length ∉ placed.map Prod.snd := by
    intro hm
    obtain ⟨x, hx, e⟩ := List.mem_map.1 hm
    have := h.ltPlaced x hx
    omega
  have hfreshW : ∀ q, s.written.length ∉ wait q := fun q hm => by have := h.ltWait q _ hm; omega
  have hmem : ∀ q k, k ∈ putAt wait p (wait p ++ [s.written.length]) q →
      k ∈ wait q ∨ (q = p ∧ k = s.written.length) := by
    intro q k hk
    by_cases hq : q = p
    · subst hq
      rw [putAt_same] at hk
      rcases List.mem_append.1 hk with hk | hk
      · exact .inl hk
      · exact .inr ⟨rfl, List.mem_singleton.1 hk⟩
    · rw [putAt_ne _ _ hq] at hk; exact .inl hk
  have hin : ∀ q k, k ∈ wait q → k ∈ putAt wait p (wait p ++ [s.written.length]) q := by
    intro q k hk
    by_cases hq : q = p
    · subst hq; rw [putAt_same]; exact List.mem_append_left _ hk
    · rw [putAt_ne _ _ hq]; exact hk
  have hlines : ∀ ks : List Nat, (∀ k ∈ ks, k < s.written.length) →
      (ks.map fun k => (s.written ++ [line]).getD k []).flatten = s.lines ks := by
    intro ks hks
    unfold PrState.lines
    congr 1
    exact List.map_congr_left fun k hk => hold k (hks k hk)
  refine ⟨fun j => ?_, fun q => ?_, fun x hx => ?_, fun q k hk => ?_, h.nodup, fun q => ?_, fun q k hk => ?_,
    fun q q' k hk hk' => ?_, h.named, h.fd, h.below, h.unused, fun q hq => ?_, fun q t' k hk => ?_,
    fun q k hk => ?_, h.fin, fun q hq t' => ?_⟩
  · change s.data j = _ ++ (List.map (fun x : Nat × Nat => (s.written ++ [line]).getD x.2 []) _).flatten
    rw [h.data j]
    congr 2
    exact List.map_congr_left fun x hx => (hold x.2 (h.ltPlaced x (List.mem_filter.1 hx).1)).symm
  · change putAt s.buf p (s.buf p ++ line) q =
      (List.map (fun k => (s.written ++ [line]).getD k []) _).flatten
    by_cases hq : q = p
    · subst hq
      rw [putAt_same, putAt_same, List.map_append, List.flatten_append, hlines _ (h.ltWait q), ← h.buf q]
      simp
    · rw [putAt_ne _ _ hq, putAt_ne _ _ hq, hlines _ (h.ltWait q), ← h.buf q]
  · change x.2 < (s.written ++ [line]).length
    have := h.ltPlaced x hx
    simp; omega
  · change k < (s.written ++ [line]).length
    rcases hmem q k hk with h1 | ⟨_, h1⟩
    · have := h.ltWait q k h1; simp; omega
    · simp; omega
  · by_cases hq : q = p
    · subst hq
      rw [putAt_same]
      refine List.nodup_append.2 ⟨h.nodupWait q, by simp, fun a ha b hb e => ?_⟩
      rw [List.mem_singleton] at hb
      subst e hb
      exact hfreshW q ha
    · rw [putAt_ne _ _ hq]; exact h.nodupWait q
  · rcases hmem q k hk with h1 | ⟨_, h1⟩
    · exact h.apart q k h1
    · rw [h1]; exact hfresh
  · rcases hmem q k hk with h1 | ⟨h1, h1'⟩ <;> rcases hmem q' k hk' with h2 | ⟨h2, h2'⟩
    · exact h.apartWait q q' k h1 h2
    · exact absurd (h2' ▸ h1) (hfreshW q)
    · exact absurd (h1' ▸ h2) (hfreshW q')
    · rw [h1, h2]
  · change s.fd q = none at hq
    by_cases hqp : q = p
    · subst hqp; rw [hf] at hq; cases hq
    · rw [putAt_ne _ _ hqp]; exact h.noFile q hq
  · rw [pr_pc_go] at hk
    split at hk
    · rename_i e
      cases hk
      rw [e.1, putAt_same]
      exact .inl (by simp)
    · rcases h.flush q t' k hk with h1 | h1
      · exact .inl (hin q k h1)
      · exact .inr h1
  · rcases hmem q k hk with h1 | ⟨h1, h1'⟩
    · obtain ⟨t', ht'⟩ := h.back q k h1
      refine ⟨t', ?_⟩
      rw [pr_pc_go, if_neg]
      · exact ht'
      · rintro ⟨rfl, rfl⟩
        rw [hp] at ht'; cases ht'
    · refine ⟨t, ?_⟩
      rw [pr_pc_go, if_pos ⟨h1, rfl⟩, h1']; rfl
  · change s.used q = false at hq
    rw [pr_pc_go, if_neg]
    · exact h.numbers q hq t'
    · rintro ⟨rfl, _⟩
      rw [hu] at hq; cases hq

/-- A thread ends its call when nothing waits in the buffer. -/
theorem PrInv.ended {c : PrConf} {s₀ s : PrState} {placed : List (Nat × Nat)} {wait : Nat → List Nat}
    (h : PrInv c s₀ s placed wait) (p t : Nat) (hw : wait p = []) (hu : s.used p = true) :
    PrInv c s₀ (s.go p t .idle) placed wait := by
  have : s.go p t .idle = { s with pc := putAt s.pc p (putAt (s.pc p) t .idle) } := rfl
  refine ⟨h.data, h.buf, h.ltPlaced, h.ltWait, h.nodup, h.nodupWait, h.apart, h.apartWait, h.named, h.fd,
    h.below, h.unused, h.noFile, fun p' t' k hk => ?_, fun p' k hk => ?_, h.fin, fun p' hp' t' => ?_⟩
  · rw [pr_pc_go] at hk
    split at hk
    · cases hk
    · exact h.flush p' t' k hk
  · obtain ⟨t', ht'⟩ := h.back p' k hk
    refine ⟨t', ?_⟩
    rw [pr_pc_go, if_neg]
    · exact ht'
    · rintro ⟨rfl, _⟩
      rw [hw] at hk; cases hk
  · rw [pr_pc_go, if_neg]
    · exact h.numbers p' hp' t'
    · rintro ⟨rfl, _⟩
      rw [show s.used p' = false from hp'] at hu
      cases hu

theorem PrInv.done {c : PrConf} {s₀ s : PrState} {placed : List (Nat × Nat)} {wait : Nat → List Nat}
    (h : PrInv c s₀ s placed wait) (k : Nat) (hk : k ∈ placed.map Prod.snd) :
    PrInv c s₀ { s with finished := s.finished ++ [k] } placed wait := by
  refine ⟨h.data, h.buf, h.ltPlaced, h.ltWait, h.nodup, h.nodupWait, h.apart, h.apartWait, h.named, h.fd,
    h.below, h.unused, h.noFile, h.flush, h.back, fun k' hk' => ?_, h.numbers⟩
  rcases List.mem_append.1 hk' with h3 | h3
  · exact h.fin k' h3
  · rw [List.mem_singleton.1 h3]; exact hk

theorem PrInv.step {c : PrConf} (hforced : c.forced = true) (hcalm : c.calm = true) {s₀ s s' : PrState}
    {placed : List (Nat × Nat)} {wait : Nat → List Nat} (h : PrInv c s₀ s placed wait) (hs : PrStep c s s') :
    ∃ placed' wait', PrInv c s₀ s' placed' wait' := by
  cases hs with
  | begin p t hu =>
    have hq : ∀ t, (s.pc p t).num = none := fun t => by rw [h.numbers p hu t]; rfl
    have h1 := h.lose p (fun _ => .absent) (fun t k hk => (nomatch hk)) (fun _ _ => rfl)
    have h2 := (h1.usedTrue p).opened p true (putAt_same _ _ _)
    have h3 := h2.pcs p (putAt (fun _ => .absent) t .idle)
      (fun t' => by by_cases e : t' = t
                    · subst e; rw [putAt_same]; rfl
                    · rw [putAt_ne _ _ e]; rfl)
      (putAt_same _ _ _) (putAt_same _ _ _)
    have h4 := h3.locks (putAt s.lock p none) (putAt s.rotLock p none)
    refine ⟨placed, putAt wait p [], ?_⟩
    convert h4 using 1
    unfold PrState.put PrState.view FileW.open
    simp only [if_true, putAt_same]
    cases s.files c.fn <;> simp [putAt_putAt]
  | thread p t u h1 h2 => exact ⟨_, _, h.go p t .idle (by rw [h2]; rfl) (h.used h1)⟩
  | fork p t q hpt hq hc =>
    have hw := h.quiet (p := p) (fun u => by rcases hc hcalm u with e | e <;> rw [e] <;> rfl)
    have hwq := h.quiet (p := q) (fun u => by rw [h.numbers q hq u]; rfl)
    have hb : s.buf p = [] := by rw [h.buf, hw]; rfl
    have hbq : s.buf q = [] := by rw [h.buf, hwq]; rfl
    have h3 := ((h.usedTrue q).fdSet q (s.fd p) (fun i hi => h.fd p i hi) hwq).pcs q
      (putAt (fun _ => .absent) t .idle)
      (fun t' => by by_cases e : t' = t
                    · subst e; rw [putAt_same]; rfl
                    · rw [putAt_ne _ _ e]; rfl) hwq (putAt_same _ _ _)
    have h4 := h3.locks (putAt s.lock q (s.lock p)) (putAt s.rotLock q (s.rotLock p))
    refine ⟨placed, wait, ?_⟩
    convert h4 using 1
    unfold PrState.forked
    rw [hb, ← hbq, putAt_self]
  | die p =>
    refine ⟨placed, putAt wait p [], ?_⟩
    exact (h.lose p (fun _ => .absent) (fun t k hk => (nomatch hk)) (fun _ _ => rfl)).locks _ _
  | exit p hq =>
    obtain ⟨pl, wt, h1, hw⟩ := h.close p
    by_cases hu : s.used p = true
    · exact ⟨pl, wt, (h1.pcs p (fun _ => .absent) (fun _ => rfl) hw hu).locks _ _⟩
    · refine ⟨pl, wt, ?_⟩
      have hu' : s.used p = false := by simpa using hu
      have : s.gone p (s.view p).close = { s.put p (s.view p).close with
          lock := putAt s.lock p none, rotLock := putAt s.rotLock p none } := by
        unfold PrState.gone
        have e : (fun _ => PrPc.absent) = s.pc p := funext fun t => (h.numbers p hu' t).symm
        rw [e, putAt_self]
        rfl
      rw [this]; exact h1.locks _ _
  | call p t line hp => exact ⟨_, _, h.go p t _ (by rw [hp]; rfl) (h.used (t := t) (by rw [hp]; simp))⟩
  | enterRot p t line hp hl =>
    exact ⟨_, _, (h.locks s.lock (putAt s.rotLock p (some t))).go p t _
      (by change _ = (s.pc p t).num; rw [hp]; rfl) (h.used (t := t) (by rw [hp]; simp))⟩
  | fire p t line n hp hn hf hl =>
    exact ⟨_, _, (h.locks (putAt s.lock p (some t)) s.rotLock).go p t _
      (by change _ = (s.pc p t).num; rw [hp]; rfl) (h.used (t := t) (by rw [hp]; simp))⟩
  | pass p t line hp hn =>
    exact ⟨_, _, (h.locks s.lock (putAt s.rotLock p none)).go p t _
      (by change _ = (s.pc p t).num; rw [hp]; rfl) (h.used (t := t) (by rw [hp]; simp))⟩
  | moved p t line target again w' hp ht hne hm =>
    exact ⟨_, _, (h.moved p target w' ht hm).go p t _
      (by change _ = (s.pc p t).num; rw [hp]; rfl) (h.used (t := t) (by rw [hp]; simp))⟩
  | notFound p t line hp => exact ⟨_, _, h.go p t _ (by rw [hp]; rfl) (h.used (t := t) (by rw [hp]; simp))⟩
  | refused p t line again hp =>
    exact ⟨_, _, (h.locks (putAt s.lock p none) (putAt s.rotLock p none)).go p t _
      (by change _ = (s.pc p t).num; rw [hp]; rfl) (h.used (t := t) (by rw [hp]; simp))⟩
  | reopen p t line ok hp =>
    obtain ⟨pl, wt, h1, hw⟩ := h.close p
    have hfd : (s.put p (s.view p).close).fd p = none := by
      unfold PrState.put FileW.close PrState.view
      dsimp only
      rw [putAt_same]
      cases hf : s.fd p <;> rfl
    have h2 := h1.opened p ok hfd
    have e : (s.put p (s.view p).close).put p (FileW.open ((s.put p (s.view p).close).view p) c.fn ok) =
        s.put p ((s.view p).reopen c.fn ok) := by
      have hv : (s.put p (s.view p).close).view p = (s.view p).close := by
        unfold PrState.put
        generalize (s.view p).close = w
        unfold PrState.view
        simp only [putAt_same]
      rw [hv]
      unfold FileW.reopen PrState.put
      simp only [putAt_putAt]
    rw [e] at h2
    refine ⟨pl, wt, ?_⟩
    exact (h2.locks (putAt s.lock p none) (putAt s.rotLock p none)).go p t _
      (by change _ = (s.pc p t).num; rw [hp]; rfl) (h.used (t := t) (by rw [hp]; simp))
  | enterWrite p t line hp hl =>
    exact ⟨_, _, (h.locks (putAt s.lock p (some t)) s.rotLock).go p t _
      (by change _ = (s.pc p t).num; rw [hp]; rfl) (h.used (t := t) (by rw [hp]; simp))⟩
  | write p t line w' hp hw =>
    unfold FileW.write PrState.view at hw
    dsimp only at hw
    cases hf : s.fd p with
    | none => rw [hf] at hw; cases hw
    | some i =>
      rw [hf] at hw
      cases hw
      have h1 := (h.locks (putAt s.lock p none) s.rotLock).written p t i line hf
        (by change (s.pc p t).num = none; rw [hp]; rfl) (h.used (t := t) (by rw [hp]; simp))
      refine ⟨placed, putAt wait p (wait p ++ [s.written.length]), ?_⟩
      convert h1 using 1
      unfold PrState.put PrState.setLock PrState.go
      simp only [List.take_zero, List.append_nil, putAt_self, List.drop_zero]
      rw [← hf, putAt_self]
  | writeFails p t line hp hf =>
    exact ⟨_, _, (h.locks (putAt s.lock p none) s.rotLock).go p t _
      (by change _ = (s.pc p t).num; rw [hp]; rfl) (h.used (t := t) (by rw [hp]; simp))⟩
  | enterFlush p t k hp hf hl =>
    exact ⟨_, _, (h.locks (putAt s.lock p (some t)) s.rotLock).go p t _
      (by change _ = (s.pc p t).num; rw [hp]; rfl) (h.used (t := t) (by rw [hp]; simp))⟩
  | flush p t k w' hp hw =>
    unfold FileW.flush PrState.view at hw
    dsimp only at hw
    cases hf : s.fd p with
    | none => rw [hf] at hw; cases hw
    | some i =>
      rw [hf] at hw
      cases hw
      have h1 := h.spill p i hf
      have hk : k ∈ (placed ++ (wait p).map fun k => (i, k)).map Prod.snd := by
        rcases h1.flush p t k (by change (s.pc p t).num = _; rw [hp]; rfl) with h2 | h2
        · rw [putAt_same] at h2; cases h2
        · exact h2
      have h2 := (h1.locks (putAt s.lock p none) s.rotLock).ended p t (putAt_same _ _ _)
        (h.used (t := t) (by rw [hp]; simp))
      refine ⟨placed ++ (wait p).map fun k => (i, k), putAt wait p [], ?_⟩
      have h3 := h2.done k hk
      convert h3 using 1
      unfold PrState.put PrState.setLock PrState.go
      dsimp only
      rw [← hf, putAt_self]
  | flushFails p t k hp hf =>
    exact ⟨_, _, (h.locks (putAt s.lock p none) s.rotLock).ended p t (h.noFile p hf)
      (h.used (t := t) (by rw [hp]; simp))⟩
  | noFlush p t k hp hf => rw [hforced] at hf; cases hf

theorem PrRun.inv {c : PrConf} (hforced : c.forced = true) (hcalm : c.calm = true) {s₀ s : PrState}
    (h₀ : PrStart s₀) (hr : PrRun c s₀ s) : ∃ placed wait, PrInv c s₀ s placed wait := by
  induction hr with
  | init =>
    refine ⟨[], fun _ => [], fun i => by simp, fun p => by rw [h₀.buf]; rfl, by simp, by simp, by simp, by simp,
      by simp, by simp, by simp, fun p i hi => ?_, h₀.below, h₀.unused, fun _ _ => rfl, fun p t k hk => ?_,
      by simp, fun k hk => ?_, fun p _ t => h₀.absent p t⟩
    · rw [h₀.closed] at hi; cases hi
    · rw [h₀.absent] at hk; cases hk
    · rw [h₀.history.2.1] at hk; cases hk
  | step _ hs ih =>
    obtain ⟨_, _, hi⟩ := ih
    exact hi.step hforced hcalm hs

end Polog
