import Verif.File.Lemmas
import Verif.File.MultiSpec

/-! C71: several processes log to one file. -/

namespace Polog
open MultiSpec

/-- A file that will not be forgotten. -/
def MState.Named (s : MState) (fn : Str) (i : Nat) : Prop :=
  ∃ name, s.files name = some i ∧ (name = fn ∨ name ∈ s.rotated)

/-- What the buffer of a process holds: the line between `write` and `flush`, nothing otherwise. -/
def MPc.pending : MPc → Str
  | .flushing line => line
  | _ => []

structure MInv (c : MConf) (s₀ s : MState) (place : List Nat) : Prop where
  len : place.length = s.finished.length
  data : ∀ i, s.data i =
    s₀.data i ++ (((place.zip s.finished).filter (fun x => x.1 = i)).map Prod.snd).flatten
  named : ∀ i ∈ place, s.Named c.fn i
  fd : ∀ p i, s.fd p = some i → s.Named c.fn i
  unused : ∀ i, s.fresh ≤ i → s.data i = []
  below : ∀ n i, s.files n = some i → i < s.fresh
  buf : ∀ p, s.buf p = (s.pc p).pending

/-- A step that changes only where a process is, and leaves its buffer right. -/
theorem MInv.setPc {c : MConf} {s₀ s : MState} {place : List Nat} (h : MInv c s₀ s place) (p : Nat)
    (q : MPc) (hq : q.pending = s.buf p) : MInv c s₀ { s with pc := putAt s.pc p q } place := by
  refine ⟨h.len, h.data, h.named, h.fd, h.unused, h.below, fun p' => ?_⟩
  change s.buf p' = (putAt s.pc p q p').pending
  by_cases hp : p' = p
  · subst hp; rw [putAt_same, hq]
  · rw [putAt_ne _ _ hp, h.buf]

/-- Opening the file of the log for process `p`, whatever it had open before. -/
theorem MInv.opened {c : MConf} {s₀ s : MState} {place : List Nat} (h : MInv c s₀ s place) (p : Nat)
    (q : MPc) (hq : q.pending = []) :
    MInv c s₀ { s.put p (FileW.open ⟨s.files, s.data, s.fresh, none, []⟩ c.fn true) with
      pc := putAt s.pc p q } place := by
  have hbuf : ∀ p', putAt s.buf p [] p' = (putAt s.pc p q p').pending := by
    intro p'
    by_cases hp : p' = p
    · subst hp; rw [putAt_same, putAt_same, hq]
    · rw [putAt_ne _ _ hp, putAt_ne _ _ hp, h.buf]
  unfold FileW.open MState.put
  simp only [if_true]
  cases hf : s.files c.fn with
  | some i =>
    refine ⟨h.len, h.data, h.named, fun p' j hj => ?_, h.unused, h.below, hbuf⟩
    dsimp only at hj
    by_cases hp : p' = p
    · subst hp; rw [putAt_same] at hj; cases hj; exact ⟨c.fn, hf, .inl rfl⟩
    · rw [putAt_ne _ _ hp] at hj; exact h.fd p' j hj
  | none =>
    have hd : putAt s.data s.fresh [] = s.data := by
      rw [← h.unused s.fresh (Nat.le_refl _), putAt_self]
    have hn : ∀ j, s.Named c.fn j →
        ∃ name, putAt s.files c.fn (some s.fresh) name = some j ∧ (name = c.fn ∨ name ∈ s.rotated) := by
      rintro j ⟨name, h1, h2⟩
      refine ⟨name, ?_, h2⟩
      rw [putAt_ne, h1]
      rintro rfl
      rw [hf] at h1; cases h1
    refine ⟨h.len, fun i => ?_, fun i hi => hn i (h.named i hi), fun p' j hj => ?_, fun i hi => ?_,
      fun n j hj => ?_, hbuf⟩
    · dsimp only; rw [hd]; exact h.data i
    · dsimp only at hj
      by_cases hp : p' = p
      · subst hp; rw [putAt_same] at hj; cases hj; exact ⟨c.fn, putAt_same _ _ _, .inl rfl⟩
      · rw [putAt_ne _ _ hp] at hj; exact hn j (h.fd p' j hj)
    · dsimp only at hi ⊢; rw [hd]; exact h.unused i (by omega)
    · dsimp only at hj ⊢
      by_cases hc : n = c.fn
      · subst hc; rw [putAt_same] at hj; cases hj; omega
      · rw [putAt_ne _ _ hc] at hj; have := h.below n j hj; omega

/-- Process `p` closes its file with an empty buffer, or dies. -/
theorem MInv.closed {c : MConf} {s₀ s : MState} {place : List Nat} (h : MInv c s₀ s place) (p : Nat)
    (q : MPc) (hq : q.pending = []) :
    MInv c s₀ { s with pc := putAt s.pc p q, fd := putAt s.fd p none, buf := putAt s.buf p [] } place := by
  refine ⟨h.len, h.data, h.named, fun p' j hj => ?_, h.unused, h.below, fun p' => ?_⟩
  · dsimp only at hj
    by_cases hp : p' = p
    · subst hp; rw [putAt_same] at hj; cases hj
    · rw [putAt_ne _ _ hp] at hj; exact h.fd p' j hj
  · change putAt s.buf p [] p' = (putAt s.pc p q p').pending
    by_cases hp : p' = p
    · subst hp; rw [putAt_same, putAt_same, hq]
    · rw [putAt_ne _ _ hp, putAt_ne _ _ hp, h.buf]

theorem MState.put_view (s : MState) (p : Nat) : s.put p (s.view p) = s := by
  unfold MState.put MState.view
  simp only [putAt_self]

theorem MInv.step {c : MConf} (hfs : c.sameFs = true) (hsh : c.short = true) {s₀ s s' : MState}
    {place : List Nat} (h : MInv c s₀ s place) (hs : MStep c s s') : ∃ place', MInv c s₀ s' place' := by
  cases hs with
  | start p hpc => exact ⟨place, h.opened p .idle rfl⟩
  | die p => exact ⟨place, h.closed p .dead rfl⟩
  | call p line hpc => exact ⟨place, h.setPc p _ (by rw [h.buf, hpc]; rfl)⟩
  | fire p line n hpc => exact ⟨place, h.setPc p _ (by rw [h.buf, hpc]; rfl)⟩
  | pass p line hpc => exact ⟨place, h.setPc p _ (by rw [h.buf, hpc]; rfl)⟩
  | noDirs p line hpc => exact ⟨place, h.setPc p _ (by rw [h.buf, hpc]; rfl)⟩
  | fails p line hpc => exact ⟨place, h.setPc p _ (by rw [h.buf, hpc]; rfl)⟩
  | move p line target again r hpc htar hne hcop =>
    have hb : s.buf p = [] := by rw [h.buf, hpc]; rfl
    have same : ∀ q : MPc, q.pending = [] →
        MInv c s₀ { s.put p (s.view p) with pc := putAt s.pc p q, rotated := s.rotated } place := by
      intro q hq
      rw [MState.put_view]
      exact h.setPc p q (by rw [hq, hb])
    refine ⟨place, ?_⟩
    have hr := hcop hfs
    unfold FileW.moveOnce
    have hvf : (s.view p).files = s.files := rfl
    rw [hvf]
    cases hf : s.files c.fn with
    | none =>
      refine same _ ?_
      dsimp only
      split <;> rfl
    | some i =>
      cases r with
      | copied => simp [MoveRes.copies] at hr
      | broken k => simp [MoveRes.copies] at hr
      | notRemoved => simp [MoveRes.copies] at hr
      | noDirectory =>
        refine same _ ?_
        dsimp only
        split <;> rfl
      | refused => exact same _ rfl
      | renamed =>
        have hn : ∀ j, s.Named c.fn j →
            ∃ name, putAt (putAt s.files c.fn none) target (some i) name = some j ∧
              (name = c.fn ∨ name ∈ s.rotated ++ [target]) := by
          rintro j ⟨name, h1, h2⟩
          by_cases hname : name = c.fn
          · subst hname
            rw [hf] at h1
            cases h1
            exact ⟨target, putAt_same _ _ _, .inr (by simp)⟩
          · refine ⟨name, ?_, .inr ?_⟩
            · rw [putAt_ne, putAt_ne _ _ hname, h1]
              rintro rfl
              rw [htar] at h1; cases h1
            · rcases h2 with h2 | h2
              · exact absurd h2 hname
              · simp [h2]
        have hbuf : ∀ p', putAt s.buf p (s.buf p) p' = (putAt s.pc p (.reopening line) p').pending := by
          intro p'
          rw [putAt_self]
          by_cases hp : p' = p
          · subst hp; rw [putAt_same, hb]; rfl
          · rw [putAt_ne _ _ hp, h.buf]
        refine ⟨h.len, h.data, fun j hj => hn j (h.named j hj), fun p' j hj => ?_, h.unused,
          fun n j hj => ?_, hbuf⟩
        · refine hn j (h.fd p' j ?_)
          change putAt s.fd p (s.fd p) p' = some j at hj
          rwa [putAt_self] at hj
        · change putAt (putAt s.files c.fn none) target (some i) n = some j at hj
          change j < s.fresh
          by_cases h1 : n = target
          · subst h1; rw [putAt_same] at hj; cases hj; exact h.below _ _ hf
          · rw [putAt_ne _ _ h1] at hj
            by_cases h2 : n = c.fn
            · subst h2; rw [putAt_same] at hj; cases hj
            · rw [putAt_ne _ _ h2] at hj; exact h.below _ _ hj
  | reopen p line ok hpc =>
    have hb : s.buf p = [] := by rw [h.buf, hpc]; rfl
    have hclose : (s.view p).close = ⟨s.files, s.data, s.fresh, none, []⟩ := by
      unfold FileW.close MState.view
      dsimp only
      cases hfd : s.fd p with
      | none => simp [hb]
      | some i => simp [hb, putAt_self]
    refine ⟨place, ?_⟩
    unfold FileW.reopen
    rw [hclose]
    cases ok with
    | true => exact h.opened p _ rfl
    | false => exact h.closed p _ rfl
  | write p line auto w' hpc hauto hw =>
    have hb : s.buf p = [] := by rw [h.buf, hpc]; rfl
    obtain rfl := hauto hsh
    unfold FileW.write at hw
    cases hfd : (s.view p).file with
    | none => rw [hfd] at hw; cases hw
    | some i =>
      rw [hfd] at hw
      cases hw
      have hfd' : s.fd p = some i := hfd
      refine ⟨place, h.len, fun j => ?_, h.named, fun p' j hj => ?_, fun j hj => ?_, h.below, fun p' => ?_⟩
      · change putAt s.data i (s.data i ++ []) j = _
        rw [List.append_nil, putAt_self]
        exact h.data j
      · refine h.fd p' j ?_
        change putAt s.fd p (some i) p' = some j at hj
        rwa [← hfd', putAt_self] at hj
      · change putAt s.data i (s.data i ++ []) j = _
        rw [List.append_nil, putAt_self]
        exact h.unused j hj
      · change putAt s.buf p (s.buf p ++ line) p' = (putAt s.pc p (.flushing line) p').pending
        rw [hb]
        by_cases hp : p' = p
        · subst hp; rw [putAt_same, putAt_same]; rfl
        · rw [putAt_ne _ _ hp, putAt_ne _ _ hp, h.buf]
  | flush p line w' hpc hw =>
    have hb : s.buf p = line := by rw [h.buf, hpc]; rfl
    unfold FileW.flush at hw
    cases hfd : (s.view p).file with
    | none => rw [hfd] at hw; cases hw
    | some i =>
      rw [hfd] at hw
      cases hw
      have hfd' : s.fd p = some i := hfd
      have hnamed := h.fd p i hfd'
      refine ⟨place ++ [i], ?_, fun j => ?_, fun j hj => ?_, fun p' j hj => ?_, fun j hj => ?_,
        ?_, fun p' => ?_⟩
      · simp [h.len]
      · change putAt s.data i (s.data i ++ s.buf p) j = _
        dsimp only
        rw [List.zip_append h.len, List.filter_append, List.map_append, List.flatten_append,
          ← List.append_assoc, ← h.data j, hb]
        by_cases hj : j = i
        · subst hj; rw [putAt_same]; simp
        · rw [putAt_ne _ _ hj]; simp [Ne.symm hj]
      · rcases List.mem_append.1 hj with hj | hj
        · exact h.named j hj
        · rw [List.mem_singleton] at hj; subst hj; exact hnamed
      · refine h.fd p' j ?_
        change putAt s.fd p (some i) p' = some j at hj
        rwa [← hfd', putAt_self] at hj
      · obtain ⟨n, h1, _⟩ := hnamed
        have hlt := h.below n i h1
        have hj' : s.fresh ≤ j := hj
        change putAt s.data i _ j = _
        rw [putAt_ne _ _ (by omega)]
        exact h.unused j hj'
      · exact h.below
      · change putAt s.buf p [] p' = (putAt s.pc p .idle p').pending
        by_cases hp : p' = p
        · subst hp; rw [putAt_same, putAt_same]; rfl
        · rw [putAt_ne _ _ hp, putAt_ne _ _ hp, h.buf]

theorem MRun.inv {c : MConf} (hfs : c.sameFs = true) (hsh : c.short = true) {s₀ s : MState}
    (h₀ : MStart s₀) (hr : MRun c s₀ s) : ∃ place, MInv c s₀ s place := by
  induction hr with
  | init =>
    refine ⟨[], by simp [h₀.history.1], by simp, by simp, fun p i hi => ?_, h₀.unused, h₀.below,
      fun p => by rw [h₀.buf, h₀.absent]; rfl⟩
    rw [h₀.closed] at hi; cases hi
  | step _ hs ih =>
    obtain ⟨place, hi⟩ := ih
    exact hi.step hfs hsh hs

/-- **C71 (partial).** Any number of processes log to one file with the file lock, `forced_flush` and any
rotation rules; they start and die at any moment, and rotations may fail.  If rotated files stay on the
file system of the log and lines fit into the buffer of an open file, then every line for which the
handler has finished is in the log or in a rotated file, whole, exactly once, in the order of finishing
within each file, and the files contain nothing else.  Missing: other file systems
(`C71_line_of_another_process_is_lost_fails`) and long lines (`C71_long_lines_are_torn_fails`). -/
theorem C71_lines_of_all_processes_kept_partial (c : MConf) (hfs : c.sameFs = true)
    (hsh : c.short = true) (s₀ s : MState) (h₀ : MStart s₀) (hr : MRun c s₀ s) :
    LinesKept c.fn s₀ s := by
  obtain ⟨place, hi⟩ := hr.inv hfs hsh h₀
  exact ⟨place, hi.len, hi.data, hi.named⟩

/-- Consequence in terms of names only: a line that was finished can be found. -/
theorem C71_finished_line_can_be_found_partial (c : MConf) (hfs : c.sameFs = true)
    (hsh : c.short = true) (s₀ s : MState) (h₀ : MStart s₀) (hr : MRun c s₀ s) (line : Str)
    (hl : line ∈ s.finished) :
    ∃ name, (name = c.fn ∨ name ∈ s.rotated) ∧ HasText s name line := by
  obtain ⟨place, hlen, hdata, hnamed⟩ :=
    C71_lines_of_all_processes_kept_partial c hfs hsh s₀ s h₀ hr
  obtain ⟨k, hk, rfl⟩ := List.mem_iff_getElem.1 hl
  have hk' : k < place.length := by omega
  have hz : (place[k], s.finished[k]) ∈ place.zip s.finished := by
    rw [List.mem_iff_getElem]
    exact ⟨k, by simp; omega, by simp⟩
  obtain ⟨name, h1, h2⟩ := hnamed place[k] (List.getElem_mem _)
  refine ⟨name, h2, place[k], ?_⟩
  have hm : s.finished[k] ∈ ((place.zip s.finished).filter (fun x => x.1 = place[k])).map Prod.snd :=
    List.mem_map.2 ⟨_, List.mem_filter.2 ⟨hz, by simp⟩, rfl⟩
  obtain ⟨a, b, hab⟩ := List.append_of_mem hm
  refine ⟨s₀.data place[k] ++ a.flatten, b.flatten, h1, ?_⟩
  rw [hdata, hab]
  simp

/-! ### Where it fails -/

/-- An empty file system, no processes. -/
def mEmpty : MState := ⟨fun _ => none, fun _ => [], 0, fun _ => none, fun _ => [], fun _ => .absent, [], []⟩

theorem mEmpty_start : MStart mEmpty :=
  ⟨fun _ => rfl, fun _ => rfl, fun _ => rfl, fun _ _ h => (nomatch h), fun _ _ => rfl, rfl, rfl⟩

/-- **C71 fails with another file system**: process 1 has opened the log, process 0 rotates it to another
file system (`shutil.move` copies and deletes); process 1, which still has the deleted file open, writes
its line and finishes without any error, and the line is in no file at all. -/
theorem C71_line_of_another_process_is_lost_fails :
    ∃ c s, c.short = true ∧ MRun c mEmpty s ∧ ['b'] ∈ s.finished ∧ ∀ name, ¬ HasText s name ['b'] := by
  let c : MConf := ⟨['f'], fun n => n = 0, false, true⟩
  have r : MRun c mEmpty mEmpty := .init
  have r := r.step (.start _ 0 rfl)
  have r := r.step (.start _ 1 rfl)
  have r := r.step (.call _ 0 ['a'] rfl)
  have r := r.step (.call _ 1 ['b'] rfl)
  have r := r.step (.fire _ 0 ['a'] 0 rfl rfl rfl)
  have r := r.step (.move _ 0 ['a'] ['g'] false .copied rfl rfl (by decide) (fun h => nomatch h))
  have r := r.step (.reopen _ 0 ['a'] true rfl)
  have r := r.step (.write _ 0 ['a'] 0 _ rfl (fun _ => rfl) rfl)
  have r := r.step (.flush _ 0 ['a'] _ rfl rfl)
  have r := r.step (.pass _ 1 ['b'] rfl (by intro n h; cases h; rfl))
  have r := r.step (.write _ 1 ['b'] 0 _ rfl (fun _ => rfl) rfl)
  have r := r.step (.flush _ 1 ['b'] _ rfl rfl)
  refine ⟨c, _, rfl, r, by decide, ?_⟩
  rintro name ⟨i, a, b, hf, hd⟩
  change putAt (putAt (putAt (putAt (fun _ => none) ['f'] (some 0)) ['f'] none) ['g'] (some 1)) ['f']
    (some 2) name = some i at hf
  simp only [putAt] at hf
  split at hf
  · cases hf
    change ['a'] = _ at hd
    have := congrArg (fun l => 'b' ∈ l) hd
    simp at this
  · split at hf
    · cases hf
      change [] = _ at hd
      simp at hd
    · cases hf

/-- **C71 fails for long lines**: the lock is released between `write` and `flush`.  When a line does not
fit into the buffer, part of it is in the file before `flush`, and another process can put its line into
the middle of it. -/
theorem C71_long_lines_are_torn_fails :
    ∃ c s, c.sameFs = true ∧ MRun c mEmpty s ∧ ['a', 'a'] ∈ s.finished ∧
      ∀ name, ¬ HasText s name ['a', 'a'] := by
  let c : MConf := ⟨['f'], fun _ => false, true, false⟩
  have r : MRun c mEmpty mEmpty := .init
  have r := r.step (.start _ 0 rfl)
  have r := r.step (.start _ 1 rfl)
  have r := r.step (.call _ 0 ['a', 'a'] rfl)
  have r := r.step (.call _ 1 ['b'] rfl)
  have r := r.step (.pass _ 0 ['a', 'a'] rfl (fun _ _ => rfl))
  have r := r.step (.pass _ 1 ['b'] rfl (fun _ _ => rfl))
  have r := r.step (.write _ 0 ['a', 'a'] 1 _ rfl (fun h => nomatch h) rfl)
  have r := r.step (.write _ 1 ['b'] 0 _ rfl (fun _ => rfl) rfl)
  have r := r.step (.flush _ 1 ['b'] _ rfl rfl)
  have r := r.step (.flush _ 0 ['a', 'a'] _ rfl rfl)
  refine ⟨c, _, rfl, r, by decide, ?_⟩
  rintro name ⟨i, a, b, hf, hd⟩
  change putAt (fun _ => none) ['f'] (some 0) name = some i at hf
  simp only [putAt] at hf
  split at hf
  · cases hf
    change ['a', 'b', 'a'] = _ at hd
    rcases a with _ | ⟨x, _ | ⟨y, _ | ⟨z, t⟩⟩⟩ <;> simp at hd
  · cases hf

/-- **C71: nothing brings another process back to the log**: after process 0 has rotated the log within
one file system, the lines of process 1 go to the rotated file, however small the new log is. -/
theorem C71_other_process_keeps_writing_to_the_rotated_file :
    ∃ c s, c.sameFs = true ∧ c.short = true ∧ MRun c mEmpty s ∧ s.rotated = [['g']] ∧
      HasText s ['g'] ['b'] ∧ HasText s c.fn ['a'] ∧ ¬ HasText s c.fn ['b'] := by
  let c : MConf := ⟨['f'], fun n => n = 0, true, true⟩
  have r : MRun c mEmpty mEmpty := .init
  have r := r.step (.start _ 0 rfl)
  have r := r.step (.start _ 1 rfl)
  have r := r.step (.call _ 0 ['a'] rfl)
  have r := r.step (.call _ 1 ['b'] rfl)
  have r := r.step (.fire _ 0 ['a'] 0 rfl rfl rfl)
  have r := r.step (.move _ 0 ['a'] ['g'] false .renamed rfl rfl (by decide) (fun _ => rfl))
  have r := r.step (.reopen _ 0 ['a'] true rfl)
  have r := r.step (.write _ 0 ['a'] 0 _ rfl (fun _ => rfl) rfl)
  have r := r.step (.flush _ 0 ['a'] _ rfl rfl)
  have r := r.step (.pass _ 1 ['b'] rfl (by intro n h; cases h; rfl))
  have r := r.step (.write _ 1 ['b'] 0 _ rfl (fun _ => rfl) rfl)
  have r := r.step (.flush _ 1 ['b'] _ rfl rfl)
  refine ⟨c, _, rfl, rfl, r, rfl, ⟨0, [], [], rfl, rfl⟩, ⟨1, [], [], rfl, rfl⟩, ?_⟩
  rintro ⟨i, a, b, hf, hd⟩
  change some 1 = some i at hf
  cases hf
  change ['a'] = _ at hd
  have := congrArg (fun l => 'b' ∈ l) hd
  simp at this

example : -- a run of two processes that meets the hypotheses of the partial theorems, with two lines
    ∃ c s, c.sameFs = true ∧ c.short = true ∧ MStart mEmpty ∧ MRun c mEmpty s ∧
      s.rotated = [['g']] := by
  obtain ⟨c, s, h1, h2, h3, h4, _⟩ := C71_other_process_keeps_writing_to_the_rotated_file
  exact ⟨c, s, h1, h2, mEmpty_start, h3, h4⟩

end Polog
