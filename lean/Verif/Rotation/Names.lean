import Verif.Format.Lemmas3
import Verif.File.Lemmas

/-! C70: names of rotated files, `polog/handlers/file/rotation/rotator.py:48-53, 120-129`. -/

namespace Polog

/-- A `datetime.datetime` without time zone, as `datetime.datetime.now()` returns it. Used at rotator.py:125. -/
structure Moment where
  year : Nat
  month : Nat
  day : Nat
  hour : Nat
  minute : Nat
  second : Nat
  micro : Nat
deriving DecidableEq

/-- The ranges the `datetime` class enforces (days per month are not needed).
Python's own; used at rotator.py:125. -/
structure Moment.Valid (t : Moment) : Prop where
  year : 1 ≤ t.year ∧ t.year ≤ 9999
  month : 1 ≤ t.month ∧ t.month ≤ 12
  day : 1 ≤ t.day ∧ t.day ≤ 31
  hour : t.hour < 24
  minute : t.minute < 60
  second : t.second < 60
  micro : t.micro < 1000000

/-- `str(datetime)` of the standard library: `YYYY-MM-DD HH:MM:SS.ffffff`, without the last part if the
microseconds are zero. Used at rotator.py:125. -/
def Moment.text (t : Moment) : Str :=
  digitsPad 4 t.year ++ '-' :: digitsPad 2 t.month ++ '-' :: digitsPad 2 t.day ++ ' ' ::
    digitsPad 2 t.hour ++ ':' :: digitsPad 2 t.minute ++ ':' :: digitsPad 2 t.second ++
    (if t.micro = 0 then [] else '.' :: digitsPad 6 t.micro)

/-- `Rotator.new_filename`, rotator.py:120-129. -/
def newFilename (now : Moment) (pid : Nat) : Str :=
  now.text.map (fun c => if c = ' ' then '_' else c) ++ '_' :: Nat.toDigits 10 pid ++ ".logs".toList

/-- `os.path.join(self.to, name)` of POSIX for a name that does not start with a slash, rotator.py:53. -/
def pathJoin (dir name : Str) : Str :=
  if dir = [] ∨ dir.getLast? = some '/' then dir ++ name else dir ++ '/' :: name

theorem map_noSpace (l : Str) (h : ∀ c ∈ l, c.isDigit) :
    l.map (fun c => if c = ' ' then '_' else c) = l := by
  conv => rhs; rw [← List.map_id l]
  refine List.map_congr_left fun c hc => ?_
  have := h c hc
  split
  · subst_vars; exact absurd this (by decide)
  · rfl

theorem newFilename_eq (t : Moment) (pid : Nat) :
    newFilename t pid =
      digitsPad 4 t.year ++ '-' :: (digitsPad 2 t.month ++ '-' :: (digitsPad 2 t.day ++ '_' ::
        (digitsPad 2 t.hour ++ ':' :: (digitsPad 2 t.minute ++ ':' :: (digitsPad 2 t.second ++
          ((if t.micro = 0 then [] else '.' :: digitsPad 6 t.micro) ++
            '_' :: (Nat.toDigits 10 pid ++ ".logs".toList))))))) := by
  unfold newFilename Moment.text
  have hm : (if t.micro = 0 then [] else '.' :: digitsPad 6 t.micro).map
      (fun c => if c = ' ' then '_' else c) = (if t.micro = 0 then [] else '.' :: digitsPad 6 t.micro) := by
    split
    · rfl
    · rw [List.map_cons, map_noSpace _ (digitsPad_digits 6 _)]; rfl
  simp only [List.map_append, List.map_cons, hm, map_noSpace _ (digitsPad_digits _ _),
    List.append_assoc, List.cons_append]
  rfl

theorem digitsPad_cut {w a b : Nat} {x y : Str} (hw : 0 < w) (ha : a < 10 ^ w) (hb : b < 10 ^ w)
    (h : digitsPad w a ++ x = digitsPad w b ++ y) : a = b ∧ x = y := by
  obtain ⟨h1, h2⟩ := List.append_inj h (by rw [digitsPad_length w a hw ha, digitsPad_length w b hw hb])
  refine ⟨?_, h2⟩
  rw [← digitsPad_value w a, h1, digitsPad_value]

theorem toDigits_inj {a b : Nat} (h : Nat.toDigits 10 a = Nat.toDigits 10 b) : a = b := by
  rw [← Nat.ofDigitChars_ten_toDigits (n := a), h, Nat.ofDigitChars_ten_toDigits]

/-- **C70.** Two rotations at different moments or in different processes get different names. -/
theorem C70_rotated_names_differ (t t' : Moment) (pid pid' : Nat) (ht : t.Valid) (ht' : t'.Valid)
    (h : newFilename t pid = newFilename t' pid') : t = t' ∧ pid = pid' := by
  rw [newFilename_eq, newFilename_eq] at h
  obtain ⟨e1, h⟩ := digitsPad_cut (by omega) (by have := ht.year; omega) (by have := ht'.year; omega) h
  obtain ⟨e2, h⟩ := digitsPad_cut (by omega) (by have := ht.month; omega) (by have := ht'.month; omega)
    (List.cons.inj h).2
  obtain ⟨e3, h⟩ := digitsPad_cut (by omega) (by have := ht.day; omega) (by have := ht'.day; omega)
    (List.cons.inj h).2
  obtain ⟨e4, h⟩ := digitsPad_cut (by omega) (by have := ht.hour; omega) (by have := ht'.hour; omega)
    (List.cons.inj h).2
  obtain ⟨e5, h⟩ := digitsPad_cut (by omega) (by have := ht.minute; omega) (by have := ht'.minute; omega)
    (List.cons.inj h).2
  obtain ⟨e6, h⟩ := digitsPad_cut (by omega) (by have := ht.second; omega) (by have := ht'.second; omega)
    (List.cons.inj h).2
  have fin : ∀ {x y : Nat}, Nat.toDigits 10 x ++ ".logs".toList = Nat.toDigits 10 y ++ ".logs".toList →
      x = y := fun hx => toDigits_inj (List.append_cancel_right hx)
  have key : t.micro = t'.micro ∧ pid = pid' := by
    by_cases h0 : t.micro = 0 <;> by_cases h0' : t'.micro = 0
    · rw [if_pos h0, if_pos h0'] at h
      exact ⟨by rw [h0, h0'], fin (List.cons.inj h).2⟩
    · rw [if_pos h0, if_neg h0'] at h
      exact absurd (List.cons.inj h).1 (by decide)
    · rw [if_neg h0, if_pos h0'] at h
      exact absurd (List.cons.inj h).1 (by decide)
    · rw [if_neg h0, if_neg h0', List.cons_append, List.cons_append] at h
      obtain ⟨e7, h⟩ := digitsPad_cut (by omega) (by have := ht.micro; omega) (by have := ht'.micro; omega)
        (List.cons.inj h).2
      exact ⟨e7, fin (List.cons.inj h).2⟩
  refine ⟨?_, key.2⟩
  cases t; cases t'
  simp_all

theorem pathJoin_inj {dir a b : Str} (h : pathJoin dir a = pathJoin dir b) : a = b := by
  unfold pathJoin at h
  split at h
  · exact List.append_cancel_left h
  · exact (List.cons.inj (List.append_cancel_left h)).2

/-- **C70.** As long as the clock of the process never shows the same microsecond twice, all files rotated
to one directory are different files. -/
theorem C70_rotated_files_are_distinct (dir : Str) (pid : Nat) (times : List Moment)
    (hv : ∀ t ∈ times, t.Valid) (hn : times.Nodup) :
    (times.map fun t => pathJoin dir (newFilename t pid)).Nodup := by
  induction times with
  | nil => exact List.nodup_nil
  | cons t ts ih =>
    rw [List.nodup_cons] at hn
    rw [List.map_cons, List.nodup_cons]
    refine ⟨fun hmem => ?_, ih (fun x hx => hv x (List.mem_cons_of_mem _ hx)) hn.2⟩
    obtain ⟨t', ht', he⟩ := List.mem_map.1 hmem
    have := C70_rotated_names_differ t' t pid pid (hv _ (List.mem_cons_of_mem _ ht'))
      (hv _ List.mem_cons_self) (pathJoin_inj he)
    exact hn.1 (this.1 ▸ ht')

theorem newFilename_noSlash (t : Moment) (pid : Nat) : '/' ∉ newFilename t pid := by
  have hd : ∀ w n, '/' ∉ digitsPad w n := fun w n hmem =>
    absurd (digitsPad_digits w n _ hmem) (by decide)
  have hp : '/' ∉ Nat.toDigits 10 pid := fun hmem =>
    absurd (Nat.isDigit_of_mem_toDigits (by decide) (by decide) hmem) (by decide)
  have hl : '/' ∉ ".logs".toList := by decide
  have hm : '/' ∉ (if t.micro = 0 then [] else '.' :: digitsPad 6 t.micro) := by
    split
    · exact List.not_mem_nil
    · intro hmem
      rcases List.mem_cons.1 hmem with h | h
      · exact absurd h (by decide)
      · exact hd _ _ h
  rw [newFilename_eq]
  simp only [List.mem_append, List.mem_cons, not_or]
  exact ⟨hd _ _, by decide, hd _ _, by decide, hd _ _, by decide, hd _ _, by decide, hd _ _, by decide,
    hd _ _, hm, by decide, hp, hl⟩

/-- **C70.** The path is that of the directory, a slash, and a name without slashes: the file is put directly into the
given directory (the current one if it is empty). -/
theorem C70_rotated_file_is_in_the_directory (dir : Str) (t : Moment) (pid : Nat) :
    ∃ before name, pathJoin dir (newFilename t pid) = before ++ name ∧ '/' ∉ name ∧ name ≠ [] ∧
      (before = dir ∨ before = dir ++ ['/']) ∧ (before = [] ↔ dir = []) ∧ (before ≠ [] → before.getLast? = some '/') := by
  refine ⟨if dir = [] ∨ dir.getLast? = some '/' then dir else dir ++ ['/'], newFilename t pid, ?_,
    newFilename_noSlash t pid, ?_, ?_, ?_, ?_⟩
  · unfold pathJoin
    split <;> simp
  · rw [newFilename_eq]; simp
  · split
    · exact Or.inl rfl
    · exact Or.inr rfl
  · split
    · rfl
    · rename_i h
      exact ⟨fun h' => by simp at h', fun h' => absurd (Or.inl h') h⟩
  · split
    · rename_i h
      exact fun hn => h.resolve_left hn
    · intro _; simp

/-- **C70 fails within one microsecond**: if a file of the chosen name exists, a rotation replaces it and
its contents are in no file any more. -/
theorem C70_same_moment_overwrites_fails (w : FileW) (fn : Str) (now : Moment) (pid i j : Nat) (dir : Str)
    (hf : w.files fn = some i) (hold : w.files (pathJoin dir (newFilename now pid)) = some j)
    (hij : ∀ name, w.files name = some j → name = pathJoin dir (newFilename now pid))
    (hne : i ≠ j) :
    ∀ name, (w.moveOnce fn (pathJoin dir (newFilename now pid)) .renamed).1.files name ≠ some j := by
  intro name h
  unfold FileW.moveOnce at h
  rw [hf] at h
  simp only [putAt] at h
  split at h
  · cases h; exact hne rfl
  · rename_i hn
    split at h
    · cases h
    · exact hn (hij name h)

/-- The moment of the example in the README, and its name. -/
example : newFilename ⟨2015, 10, 21, 18, 52, 12, 856087⟩ 10281 =
    "2015-10-21_18:52:12.856087_10281.logs".toList := by decide +kernel

example : (⟨2015, 10, 21, 18, 52, 12, 0⟩ : Moment).Valid :=
  ⟨by decide, by decide, by decide, by decide, by decide, by decide, by decide⟩

example : pathJoin "logs".toList (newFilename ⟨2015, 10, 21, 18, 52, 12, 0⟩ 7) =
    "logs/2015-10-21_18:52:12_7.logs".toList := by decide +kernel

example : ∃ (w : FileW) (j : Nat), w.files ['f'] = some 0 ∧
    w.files (pathJoin [] (newFilename ⟨2015, 10, 21, 18, 52, 12, 0⟩ 7)) = some j ∧
    (∀ name, w.files name = some j → name = pathJoin [] (newFilename ⟨2015, 10, 21, 18, 52, 12, 0⟩ 7)) ∧
    0 ≠ j := by
  refine ⟨⟨fun n => if n = ['f'] then some 0 else
    if n = pathJoin [] (newFilename ⟨2015, 10, 21, 18, 52, 12, 0⟩ 7) then some 1 else none,
    fun _ => [], 2, some 0, []⟩, 1, rfl, ?_, ?_, by decide⟩
  · decide +kernel
  · intro name h
    dsimp only at h
    split at h
    · cases h
    · split at h
      · assumption
      · cases h

end Polog
