import Verif.Locks.Model
import Mathlib.Tactic.ByContra

/-! C40, C41: mutual exclusion given by the locks of the file handler. C56: how locks are chosen. -/

namespace Polog

variable {T H : Type} [DecidableEq T] [DecidableEq H]

/-- With the thread lock on, whoever is entering or inside holds it. -/
structure ThreadInv (s : LState T H) : Prop where
  entering : ∀ t h, s.pc t = .entering h → s.threadLock h = some t
  inside : ∀ t h, s.pc t = .inside h → s.threadLock h = some t

theorem threadInv {k : LKind} {uses : T → H → Prop} (hk : k.thread = true) {s : LState T H}
    (hr : LReach k uses s) : ThreadInv s := by
  induction hr with
  | init => exact ⟨by simp [LState.init], by simp [LState.init]⟩
  | step hr hstep ih =>
    cases hstep with
    | acquireThread t h hu hp hl =>
      have hl := hl hk
      constructor <;> intro t' h' hpc <;> simp only [setPc, hk, and_true] at hpc ⊢ <;> split at hpc
      · rename_i e; cases hpc; simp [e]
      · have := ih.entering t' h' hpc
        split
        · rename_i e; subst e; rw [hl] at this; cases this
        · exact this
      · cases hpc
      · have := ih.inside t' h' hpc
        split
        · rename_i e; subst e; rw [hl] at this; cases this
        · exact this
    | acquireFile t h hp hl =>
      constructor <;> intro t' h' hpc <;> simp only [setPc] at hpc ⊢ <;> split at hpc
      · cases hpc
      · exact ih.entering t' h' hpc
      · rename_i e; cases hpc; subst e; exact ih.entering _ _ hp
      · exact ih.inside t' h' hpc
    | releaseThread t h hp =>
      have hold := ih.inside t h hp
      constructor <;> intro t' h' hpc <;> simp only [setPc, hk, and_true] at hpc ⊢ <;> split at hpc
      · cases hpc
      · rename_i hne
        have := ih.entering t' h' hpc
        split
        · rename_i e; subst e; rw [hold] at this; cases this; exact absurd rfl hne
        · exact this
      · cases hpc
      · rename_i hne
        have := ih.inside t' h' hpc
        split
        · rename_i e; subst e; rw [hold] at this; cases this; exact absurd rfl hne
        · exact this
    | releaseFile t h hp =>
      constructor <;> intro t' h' hpc <;> simp only [setPc] at hpc ⊢ <;> split at hpc
      · cases hpc
      · exact ih.entering t' h' hpc
      · cases hpc
      · exact ih.inside t' h' hpc

/-- **C40**: with a lock type that contains `thread`, in every schedule of any number of threads, at most
one thread is inside the protected section of a handler. -/
theorem C40_one_thread_inside_a_handler (k : LKind) (uses : T → H → Prop) (hk : k.thread = true)
    (s : LState T H) (hr : LReach k uses s) (h : H) (t t' : T)
    (h1 : s.pc t = .inside h) (h2 : s.pc t' = .inside h) : t = t' := by
  have hi := threadInv hk hr
  have e1 := hi.inside t h h1
  rw [hi.inside t' h h2] at e1
  cases e1; rfl

/-- A taken lock has an owner who is on the way to free it. -/
theorem ownerInv {k : LKind} {uses : T → H → Prop} {s : LState T H} (hr : LReach k uses s) :
    (∀ h t, s.threadLock h = some t → s.pc t = .entering h ∨ s.pc t = .inside h) ∧
    (∀ h, s.fileLock = some h → ∃ t, s.pc t = .inside h ∨ s.pc t = .leaving h) := by
  induction hr with
  | init => simp [LState.init]
  | @step s _ hr hstep ih =>
    obtain ⟨ih1, ih2⟩ := ih
    cases hstep with
    | acquireThread t h hu hp hl =>
      constructor
      · intro h' t' hl'
        simp only [setPc] at hl' ⊢
        split at hl'
        · rename_i e; cases hl'; simp [e.1]
        · have := ih1 h' t' hl'
          split
          · rename_i e; subst e; rw [hp] at this; simp at this
          · exact this
      · intro h' hf
        obtain ⟨t', ht'⟩ := ih2 h' hf
        refine ⟨t', ?_⟩
        simp only [setPc]
        split
        · rename_i e; subst e; rw [hp] at ht'; simp at ht'
        · exact ht'
    | acquireFile t h hp hl =>
      constructor
      · intro h' t' hl'
        have := ih1 h' t' hl'
        simp only [setPc]
        split
        · rename_i e; subst e; rw [hp] at this; simp at this; simp [this]
        · exact this
      · intro h' hf
        simp only [setPc] at hf ⊢
        by_cases hk : k.file = true
        · rw [if_pos hk] at hf; cases hf
          exact ⟨t, by simp⟩
        · rw [if_neg hk] at hf
          obtain ⟨t', ht'⟩ := ih2 h' hf
          refine ⟨t', ?_⟩
          split
          · rename_i e; subst e; rw [hp] at ht'; simp at ht'
          · exact ht'
    | releaseThread t h hp =>
      constructor
      · intro h' t' hl'
        simp only [setPc] at hl' ⊢
        split at hl'
        · cases hl'
        · rename_i hne
          have := ih1 h' t' hl'
          split
          · rename_i e
            subst e
            rw [hp] at this; simp at this; subst this
            by_cases hk : k.thread = true
            · exact absurd ⟨rfl, hk⟩ hne
            · have hnone : ∀ (s : LState T H), LReach k uses s → ∀ h, s.threadLock h = none := by
                intro s hs
                induction hs with
                | init => intro h; rfl
                | step _ hst ih => cases hst <;> intro h <;> simp [hk, ih h]
              rw [hnone _ hr] at hl'; cases hl'
          · exact this
      · intro h' hf
        obtain ⟨t', ht'⟩ := ih2 h' hf
        refine ⟨t', ?_⟩
        simp only [setPc]
        split
        · rename_i e; subst e; rw [hp] at ht'; simp at ht'; simp [ht']
        · exact ht'
    | releaseFile t h hp =>
      constructor
      · intro h' t' hl'
        have := ih1 h' t' hl'
        simp only [setPc]
        split
        · rename_i e; subst e; rw [hp] at this; simp at this
        · exact this
      · intro h' hf
        have hfl : s.fileLock = some h' → k.file = true := by
          intro hs
          by_contra hk
          have hnone : ∀ (s : LState T H), LReach k uses s → s.fileLock = none := by
            intro s hs
            induction hs with
            | init => rfl
            | step _ hst ih => cases hst <;> simp [hk, ih]
          rw [hnone _ hr] at hs; cases hs
        simp only [setPc] at hf ⊢
        split at hf
        · cases hf
        · rename_i hne
          obtain ⟨t', ht'⟩ := ih2 h' hf
          refine ⟨t', ?_⟩
          split
          · rename_i e
            subst e
            rw [hp] at ht'; simp at ht'; subst ht'
            exact absurd ⟨hfl hf, hf⟩ hne
          · exact ht'

/-- **C40**, the locks cannot deadlock: in every reachable state, for any lock type, if some thread has
begun to use the locks and not finished, then some such thread can make its next step. -/
theorem C40_no_deadlock (k : LKind) (uses : T → H → Prop) (s : LState T H) (hr : LReach k uses s)
    (t : T) (hp : s.pc t ≠ .outside) :
    ∃ t' s', s.pc t' ≠ .outside ∧ LStep k uses s s' ∧ s'.pc t' ≠ s.pc t' := by
  have hi := (ownerInv hr).2
  have go : ∀ t' h, s.pc t' = .inside h ∨ s.pc t' = .leaving h →
      ∃ t' s', s.pc t' ≠ .outside ∧ LStep k uses s s' ∧ s'.pc t' ≠ s.pc t' := by
    rintro t' h (hpc | hpc)
    · exact ⟨t', _, by simp [hpc], .releaseThread s t' h hpc, by simp [setPc, hpc]⟩
    · exact ⟨t', _, by simp [hpc], .releaseFile s t' h hpc, by simp [setPc, hpc]⟩
  cases hpc : s.pc t with
  | outside => exact absurd hpc hp
  | inside h => exact go t h (.inl hpc)
  | leaving h => exact go t h (.inr hpc)
  | entering h =>
    cases hf : s.fileLock with
    | none => exact ⟨t, _, hp, .acquireFile s t h hpc (fun _ => .inl hf), by simp [setPc, hpc]⟩
    | some h' =>
      obtain ⟨t', ht'⟩ := hi h' hf
      exact go t' h' ht'

-- two threads of one handler, one inside and one outside
example : ∃ s : LState Nat Nat, LReach ⟨true, false⟩ (fun _ _ => True) s ∧ s.pc 0 = .inside 7 ∧
    s.pc 1 = .outside := by
  have r : LReach ⟨true, false⟩ (fun (_ _ : Nat) => True) LState.init := .init
  have r := r.step (.acquireThread _ 0 7 trivial rfl (fun _ => rfl))
  have r := r.step (.acquireFile _ 0 7 rfl (fun h => nomatch h))
  exact ⟨_, r, rfl, rfl⟩

/-! ### Several processes -/

theorem fileInv {k : LKind} {uses : T → H → Prop} (hk : k.file = true)
    (hone : ∀ t t' h, uses t h → uses t' h → t = t') {s : LState T H}
    (hr : LReach k uses s) : (∀ t h, s.pc t = .inside h ∨ s.pc t = .leaving h → s.fileLock = some h) ∧
      ∀ t h, s.pc t = .inside h ∨ s.pc t = .entering h ∨ s.pc t = .leaving h → uses t h := by
  induction hr with
  | init => simp [LState.init]
  | step hr hstep ih =>
    obtain ⟨ih1, ih2⟩ := ih
    cases hstep with
    | acquireThread t h hu hp hl =>
      constructor <;> intro t' h' hpc <;> simp only [setPc] at hpc ⊢ <;> split at hpc
      · simp at hpc
      · exact ih1 t' h' hpc
      · rename_i e; subst e; simp at hpc; subst hpc; exact hu
      · exact ih2 t' h' hpc
    | acquireFile t h hp hl =>
      constructor <;> intro t' h' hpc <;> simp only [setPc, hk, if_true] at hpc ⊢ <;> split at hpc
      · simp at hpc; subst hpc; rfl
      · have hold := ih1 t' h' hpc
        rcases hl hk with hl | hl
        · rw [hl] at hold; cases hold
        · rw [hl] at hold; exact hold
      · rename_i e; subst e; simp at hpc; subst hpc; exact ih2 _ _ (.inr (.inl hp))
      · exact ih2 t' h' hpc
    | releaseThread t h hp =>
      constructor <;> intro t' h' hpc <;> simp only [setPc] at hpc ⊢ <;> split at hpc
      · simp at hpc; subst hpc; exact ih1 t h (.inl hp)
      · exact ih1 t' h' hpc
      · rename_i e; subst e; simp at hpc; subst hpc; exact ih2 _ _ (.inl hp)
      · exact ih2 t' h' hpc
    | releaseFile t h hp =>
      constructor <;> intro t' h' hpc <;> simp only [setPc, hk, true_and] at hpc ⊢ <;> split at hpc
      · simp at hpc
      · rename_i hne
        have hold := ih1 t' h' hpc
        split
        · rename_i e
          rw [e] at hold; cases hold
          exact absurd (hone t' t h (ih2 t' h (hpc.imp_right .inr)) (ih2 t h (.inr (.inr hp)))) hne
        · exact hold
      · simp at hpc
      · exact ih2 t' h' hpc

/-- **C41**: with a lock type that contains `file`, and one thread using each handler (as with
`pool_size=0` and a single-threaded program), at most one thread of all processes is inside the
protected section. Missing from the full property: processes with several threads
(`C41_processes_with_threads_never_interleave_fails`). -/
theorem C41_one_process_inside_partial (k : LKind) (uses : T → H → Prop) (hk : k.file = true)
    (hone : ∀ t t' h, uses t h → uses t' h → t = t')
    (s : LState T H) (hr : LReach k uses s) (t t' : T) (h h' : H)
    (h1 : s.pc t = .inside h) (h2 : s.pc t' = .inside h') : t = t' := by
  obtain ⟨hi, hu⟩ := fileInv hk hone hr
  have e1 := hi t h (.inl h1)
  rw [hi t' h' (.inl h2)] at e1
  cases e1
  exact hone _ _ _ (hu t h (.inl h1)) (hu t' h (.inl h2))

-- two processes with one thread each, one inside
example : ∃ s : LState Nat Nat, LReach ⟨true, true⟩ (fun t h => t = h) s ∧ s.pc 0 = .inside 0 ∧
    s.pc 1 = .entering 1 := by
  have r : LReach ⟨true, true⟩ (fun (t h : Nat) => t = h) LState.init := .init
  have r := r.step (.acquireThread _ 0 0 rfl rfl (fun _ => rfl))
  have r := r.step (.acquireFile _ 0 0 rfl (fun _ => .inl rfl))
  have r := r.step (.acquireThread _ 1 1 rfl rfl (fun _ => rfl))
  exact ⟨_, r, rfl, rfl⟩

/-- **C41** fails with several threads in a process: `__exit__` frees the thread lock first, so another
thread of the same process enters through the still held file lock, which the first thread then
frees. Threads 0 and 1 use handler 0, thread 2 (another process) uses handler 1. -/
theorem C41_processes_with_threads_never_interleave_fails :
    ¬ ∀ (s : LState Nat Nat), LReach ⟨true, true⟩ (fun t h => h = t / 2) s →
      ∀ t t' h h', s.pc t = .inside h → s.pc t' = .inside h' → t = t' := by
  intro hall
  have r : LReach ⟨true, true⟩ (fun (t h : Nat) => h = t / 2) LState.init := .init
  have r := r.step (.acquireThread _ 0 0 rfl rfl (fun _ => rfl))
  have r := r.step (.acquireFile _ 0 0 rfl (fun _ => .inl rfl))
  have r := r.step (.releaseThread _ 0 0 rfl)
  have r := r.step (.acquireThread _ 1 0 rfl rfl (fun _ => rfl))
  have r := r.step (.acquireFile _ 1 0 rfl (fun _ => .inr rfl))
  have r := r.step (.releaseFile _ 0 0 rfl)
  have r := r.step (.acquireThread _ 2 1 rfl rfl (fun _ => rfl))
  have r := r.step (.acquireFile _ 2 1 rfl (fun _ => .inl rfl))
  exact absurd (hall _ r 1 2 0 1 rfl rfl) (by decide)

/-! ### Choice of locks -/

theorem lockTypesLoop_spec (l : List Str) : ∀ seen,
    (∀ r, lockTypesLoop l seen = .ok r → r = seen ++ l ∧
      (∀ m ∈ l, m = "file".toList ∨ m = "thread".toList) ∧ (∀ m ∈ l, m ∉ seen) ∧ l.Nodup) ∧
    ((∀ m ∈ l, m = "file".toList ∨ m = "thread".toList) → (∀ m ∈ l, m ∉ seen) → l.Nodup →
      lockTypesLoop l seen = .ok (seen ++ l)) := by
  induction l with
  | nil => intro seen; simp [lockTypesLoop]
  | cons a l ih =>
    intro seen
    unfold lockTypesLoop
    constructor
    · intro r hr
      split at hr
      · cases hr
      · rename_i ha
        split at hr
        · cases hr
        · rename_i hs
          obtain ⟨h1, h2, h3, h4⟩ := (ih _).1 r hr
          have ha' : a = "file".toList ∨ a = "thread".toList := by
            by_cases h : a = "file".toList
            · exact .inl h
            · exact .inr (Classical.not_not.1 fun h' => ha ⟨h, h'⟩)
          refine ⟨by rw [h1]; simp, ?_, ?_, ?_⟩
          · intro m hm
            rcases List.mem_cons.1 hm with rfl | hm
            · exact ha'
            · exact h2 m hm
          · intro m hm
            rcases List.mem_cons.1 hm with rfl | hm
            · exact hs
            · exact fun h => h3 m hm (List.mem_append_left _ h)
          · refine List.nodup_cons.2 ⟨fun hm => ?_, h4⟩
            exact h3 a hm (by simp)
    · intro h1 h2 h3
      rw [if_neg (fun h => (h1 a (by simp)).elim h.1 h.2), if_neg (h2 a (by simp))]
      rw [(ih _).2 (fun m hm => h1 m (by simp [hm])) ?_ (List.nodup_cons.1 h3).2]
      · simp
      · intro m hm hms
        rcases List.mem_append.1 hms with h | h
        · exact h2 m (by simp [hm]) h
        · rw [List.mem_singleton] at h
          subst h
          exact (List.nodup_cons.1 h3).1 hm

/-- **C56**: a lock type string is accepted iff it is not blank and consists of different lock names
(`file`, `thread`) connected with `+` (blank parts and white space around the names do not matter); then
exactly the named locks are on. `None` means no locks; anything else raises `ValueError`. -/
theorem C56_lock_types (isSpace : Char → Bool) (s : Str) (k : LKind) :
    lockKind isSpace none = .ok ⟨false, false⟩ ∧
    lockKind isSpace (some none) = .error .valueError ∧
    (lockKind isSpace (some (some s)) = .ok k ↔
      (stripStr isSpace s ≠ [] ∧
        ∃ parts, parts = ((splitChar '+' s).map (stripStr isSpace)).filter (· ≠ []) ∧
          (∀ m ∈ parts, m = "file".toList ∨ m = "thread".toList) ∧ parts.Nodup ∧
          (k.thread = true ↔ "thread".toList ∈ parts) ∧ (k.file = true ↔ "file".toList ∈ parts))) := by
  refine ⟨rfl, rfl, ?_⟩
  unfold lockKind
  dsimp only
  by_cases hb : stripStr isSpace s = []
  · rw [if_pos hb]
    exact ⟨fun h => (nomatch h), fun h => absurd hb h.1⟩
  · rw [if_neg hb]
    generalize ((splitChar '+' s).map (stripStr isSpace)).filter (· ≠ []) = parts
    have hs := lockTypesLoop_spec parts []
    constructor
    · intro h
      cases hl : lockTypesLoop parts [] with
      | error e => rw [hl] at h; cases h
      | ok r =>
        rw [hl] at h
        obtain ⟨h1, h2, _, h4⟩ := hs.1 r hl
        rw [List.nil_append] at h1
        subst h1
        cases h
        exact ⟨hb, _, rfl, h2, h4, by simp, by simp⟩
    · rintro ⟨_, p, rfl, h2, h4, h5, h6⟩
      rw [hs.2 h2 (by simp) h4]
      dsimp only
      rw [List.nil_append]
      cases k with
      | mk kt kf =>
        simp only at h5 h6
        congr 1
        congr 1
        · exact Bool.eq_iff_iff.2 (by simpa using h5.symm)
        · exact Bool.eq_iff_iff.2 (by simpa using h6.symm)

example : lockKind (· == ' ') (some (some "thread + file".toList)) = .ok ⟨true, true⟩ := by rfl

end Polog
