import Verif.Ponies.Spec
import Verif.Ponies.Model
import Mathlib.Data.List.Nodup
import Mathlib.Tactic.IntervalCases

/-! C46 and C47: generated names and Roman numerals. -/

namespace Polog
open RomanSpec

theorem digit_nonneg (c : Char) : 0 ≤ digit c := by unfold digit; split <;> decide

theorem value_append (x y : Str) (h : ∀ c, x.getLast? = some c → first y ≤ digit c) :
    value (x ++ y) = value x + value y := by
  induction x with
  | nil => simp [value]
  | cons c x ih =>
    cases x with
    | nil =>
      cases y with
      | nil => simp [value]
      | cons d y =>
        have := h c rfl
        simp only [first] at this
        simp only [List.cons_append, List.nil_append, value]
        rw [if_neg (by omega)]
    | cons d x =>
      have ih := ih (fun e he => h e (by rw [List.getLast?_cons_cons]; exact he))
      simp only [List.cons_append, value] at ih ⊢
      rw [ih]; omega

/-- The four tables, digit by digit. -/
theorem ones_ok (d : Nat) (h : d < 10) : ∃ s, pyIndex romanOnes d = .ok s ∧ value s = d ∧
    first s ≤ 5 ∧ s.all "IVX".toList.contains = true := by
  interval_cases d <;> exact ⟨_, rfl, by decide, by decide, by decide⟩

theorem tens_ok (d : Nat) (h : d < 10) : ∃ s, pyIndex romanTens d = .ok s ∧ value s = 10 * d ∧
    first s ≤ 50 ∧ (∀ c, s.getLast? = some c → 10 ≤ digit c) ∧ s.all "XLC".toList.contains = true := by
  interval_cases d <;> exact ⟨_, rfl, by decide, by decide, by
    intro c hc
    first
      | (cases hc; decide)
      | (change none = some c at hc; cases hc), by decide⟩

theorem hunds_ok (d : Nat) (h : d < 10) : ∃ s, pyIndex romanHunds d = .ok s ∧ value s = 100 * d ∧
    first s ≤ 500 ∧ (∀ c, s.getLast? = some c → 100 ≤ digit c) ∧ s.all "CDM".toList.contains = true := by
  interval_cases d <;> exact ⟨_, rfl, by decide, by decide, by
    intro c hc
    first
      | (cases hc; decide)
      | (change none = some c at hc; cases hc), by decide⟩

theorem thous_ok (d : Nat) (h : d < 5) : ∃ s, pyIndex romanThous d = .ok s ∧ value s = 1000 * d ∧
    (∀ c, s.getLast? = some c → 1000 ≤ digit c) ∧ s.all "M".toList.contains = true := by
  interval_cases d <;> exact ⟨_, rfl, by decide, by
    intro c hc
    first
      | (cases hc; decide)
      | (change none = some c at hc; cases hc), by decide⟩

theorem first_append (x y : Str) : first (x ++ y) = if x = [] then first y else first x := by
  cases x <;> simp [first]

theorem roman_ok (n : Nat) (h : n < 5000) : ∃ s, roman n = .ok s ∧ value s = n ∧
    s.all "IVXLCDM".toList.contains = true := by
  obtain ⟨a, ha, va, la, ca⟩ := thous_ok (n / 1000) (by omega)
  obtain ⟨b, hb, vb, fb, lb, cb⟩ := hunds_ok (n / 100 % 10) (by omega)
  obtain ⟨c, hc, vc, fc, lc, cc⟩ := tens_ok (n / 10 % 10) (by omega)
  obtain ⟨d, hd, vd, fd, cd⟩ := ones_ok (n % 10) (by omega)
  refine ⟨a ++ b ++ c ++ d, ?_, ?_, ?_⟩
  · unfold roman
    rw [ha, hb, hc, hd]
    rfl
  · have hcd : value (c ++ d) = value c + value d :=
      value_append _ _ fun x hx => by have := lc x hx; omega
    have hfcd : first (c ++ d) ≤ 50 := by rw [first_append]; split <;> omega
    have hbcd : value (b ++ (c ++ d)) = value b + value (c ++ d) :=
      value_append _ _ fun x hx => by have := lb x hx; omega
    have hfbcd : first (b ++ (c ++ d)) ≤ 500 := by rw [first_append]; split <;> omega
    have habcd : value (a ++ (b ++ (c ++ d))) = value a + value (b ++ (c ++ d)) :=
      value_append _ _ fun x hx => by have := la x hx; omega
    rw [List.append_assoc, List.append_assoc, habcd, hbcd, hcd, va, vb, vc, vd]
    omega
  · have mono : ∀ (s t : Str) (p : Str), s.all t.contains = true → (∀ c ∈ t, c ∈ p) →
        s.all p.contains = true := by
      intro s t p hs ht
      rw [List.all_eq_true] at hs ⊢
      intro x hx
      have := hs x hx
      simp only [List.contains_iff_mem] at this ⊢
      exact ht x this
    rw [List.all_append, List.all_append, List.all_append,
      mono a _ _ ca (by decide), mono b _ _ cb (by decide), mono c _ _ cc (by decide),
      mono d _ _ cd (by decide)]
    rfl

/-- **C47**: the numeral generated for `n` is a Roman numeral of `n`: read by the rule of Roman numerals
it gives `n` back. For every `n` the generator can write, that is up to 4999
(`C47_no_numeral_from_5000`). -/
theorem C47_roman_numeral_denotes_its_number (n : Nat) (h : n < 5000) :
    ∃ s, roman n = .ok s ∧ value s = n := by
  obtain ⟨s, hs, hv, _⟩ := roman_ok n h
  exact ⟨s, hs, hv⟩

theorem writeWith_ones (d : Nat) (h : d < 10) :
    pyIndex romanOnes d = .ok (writeWith [(9, "IX"), (5, "V"), (4, "IV"), (1, "I")] d) := by
  interval_cases d <;> decide +kernel

theorem writeWith_tens (d r : Nat) (h : d < 10) (hr : r < 10) (l : List (Nat × String)) :
    ∃ s, pyIndex romanTens d = .ok s ∧
      writeWith ((90, "XC") :: (50, "L") :: (40, "XL") :: (10, "X") :: l) (d * 10 + r) = s ++ writeWith l r := by
  interval_cases d <;> refine ⟨_, rfl, ?_⟩ <;>
    simp only [writeWith, ← List.append_assoc] <;>
    interval_cases r <;> rfl

theorem writeWith_hunds (d r : Nat) (h : d < 10) (hr : r < 100) (l : List (Nat × String)) :
    ∃ s, pyIndex romanHunds d = .ok s ∧
      writeWith ((900, "CM") :: (500, "D") :: (400, "CD") :: (100, "C") :: l) (d * 100 + r) =
        s ++ writeWith l r := by
  interval_cases d <;> refine ⟨_, rfl, ?_⟩ <;>
    simp only [writeWith, ← List.append_assoc] <;>
    interval_cases r <;> rfl

theorem writeWith_thous (d r : Nat) (h : d < 5) (hr : r < 1000) (l : List (Nat × String)) :
    ∃ s, pyIndex romanThous d = .ok s ∧
      writeWith ((1000, "M") :: l) (d * 1000 + r) = s ++ writeWith l r := by
  have h1 : (d * 1000 + r) / 1000 = d := by omega
  have h2 : (d * 1000 + r) % 1000 = r := by omega
  simp only [writeWith, h1, h2]
  interval_cases d <;> exact ⟨_, rfl, rfl⟩

/-- **C47**: the numeral is the usual one (`IV`, not `IIII`). -/
theorem C47_roman_numeral_is_the_usual_one (n : Nat) (h : n < 5000) : roman n = .ok (usual n) := by
  obtain ⟨a, ha, wa⟩ := writeWith_thous (n / 1000) (n % 1000) (by omega) (by omega)
    [(900, "CM"), (500, "D"), (400, "CD"), (100, "C"), (90, "XC"), (50, "L"), (40, "XL"),
    (10, "X"), (9, "IX"), (5, "V"), (4, "IV"), (1, "I")]
  obtain ⟨b, hb, wb⟩ := writeWith_hunds (n / 100 % 10) (n % 100) (by omega) (by omega)
    [(90, "XC"), (50, "L"), (40, "XL"), (10, "X"), (9, "IX"), (5, "V"), (4, "IV"), (1, "I")]
  obtain ⟨c, hc, wc⟩ := writeWith_tens (n / 10 % 10) (n % 10) (by omega) (by omega)
    [(9, "IX"), (5, "V"), (4, "IV"), (1, "I")]
  have hd := writeWith_ones (n % 10) (by omega)
  unfold roman usual
  rw [ha, hb, hc, hd]
  have e1 : n / 1000 * 1000 + n % 1000 = n := by omega
  have e2 : n / 100 % 10 * 100 + n % 100 = n % 1000 := by omega
  have e3 : n / 10 % 10 * 10 + n % 10 = n % 100 := by omega
  rw [e1] at wa
  rw [e2] at wb
  rw [e3] at wc
  rw [wa, wb, wc]
  show Except.ok _ = Except.ok _
  simp only [List.append_assoc]

/-- **C47**: different numbers get different numerals. -/
theorem C47_roman_numerals_are_distinct (n m : Nat) (s : Str) (hn : roman n = .ok s)
    (hm : roman m = .ok s) : n = m := by
  have lt : ∀ k, roman k = .ok s → k < 5000 := by
    intro k hk
    by_contra hc
    have : romanThous[k / 1000]? = none := by
      rw [List.getElem?_eq_none_iff]
      show 5 ≤ k / 1000
      omega
    unfold roman pyIndex at hk
    rw [this] at hk
    cases hk
  obtain ⟨a, ha, va⟩ := C47_roman_numeral_denotes_its_number n (lt n hn)
  obtain ⟨b, hb, vb⟩ := C47_roman_numeral_denotes_its_number m (lt m hm)
  rw [hn] at ha; cases ha
  rw [hm] at hb; cases hb
  omega

/-- The limit of the table of thousands. -/
theorem C47_no_numeral_from_5000 (n : Nat) (h : 5000 ≤ n) : roman n = .error .indexError := by
  have : romanThous[n / 1000]? = none := by
    rw [List.getElem?_eq_none_iff]
    show 5 ≤ n / 1000
    omega
  unfold roman pyIndex
  rw [this]
  rfl

example : roman 2134 = .ok "MMCXXXIV".toList ∧ value "MMCXXXIV".toList = 2134 := by decide +kernel

/-! ### Names -/

/-- A lower-case ASCII letter. -/
def isLowerAscii (c : Char) : Bool := "abcdefghijklmnopqrstuvwxyz".toList.contains c

/-- The last character of every original name is lower-case, and all are identifiers after the
replacement of spaces. -/
def underscored (s : Str) : Str := s.map fun c => if c = ' ' then '_' else c

/-- An ASCII identifier that does not begin with an underscore or a digit: letters and underscores. -/
def plainId (s : Str) : Bool :=
  match s with
  | [] => false
  | c :: rest => c.isAlpha && rest.all fun c => c.isAlpha || c == '_'

theorem portion_length : ponyPortion.length = 74 := by decide +kernel
theorem portion_nodup : (ponyPortion.map underscored).Nodup := by decide +kernel
theorem portion_last : ∀ s ∈ ponyPortion, ((underscored s).getLast?.map isLowerAscii) = some true := by
  decide +kernel
theorem portion_plain : ∀ s ∈ ponyPortion, plainId (underscored s) = true := by decide +kernel

/-- Cut the trailing characters that are not lower-case. -/
def trimTail (s : Str) : Str := (s.reverse.dropWhile fun c => !isLowerAscii c).reverse

theorem trimTail_append (s t : Str) (hs : s.getLast?.map isLowerAscii = some true)
    (ht : ∀ c ∈ t, isLowerAscii c = false) : trimTail (s ++ t) = s := by
  unfold trimTail
  rw [List.reverse_append, List.dropWhile_append_of_pos (by
    intro c hc; rw [ht c (List.mem_reverse.1 hc)]; rfl)]
  cases hr : s.reverse with
  | nil =>
    rw [List.reverse_eq_nil_iff] at hr
    subst hr
    cases hs
  | cons c r =>
    have hl : s.getLast? = some c := by
      rw [← List.head?_reverse, hr]; rfl
    rw [hl] at hs
    have : isLowerAscii c = true := by simpa using hs
    rw [List.dropWhile_cons_of_neg (by simp [this]), ← hr, List.reverse_reverse]

theorem underscored_append (s t : Str) : underscored (s ++ t) = underscored s ++ underscored t :=
  List.map_append ..

theorem roman_chars {s : Str} (h : s.all "IVXLCDM".toList.contains = true) :
    underscored s = s ∧ (∀ c ∈ s, isLowerAscii c = false) ∧ s.all Char.isAlpha = true := by
  rw [List.all_eq_true] at h
  have key : ∀ c ∈ s, (if c = ' ' then '_' else c) = c ∧ isLowerAscii c = false ∧ c.isAlpha = true := by
    intro c hc
    have := h c hc
    rw [List.contains_iff_mem] at this
    have all : ∀ c ∈ "IVXLCDM".toList, (if c = ' ' then '_' else c) = c ∧ isLowerAscii c = false ∧
      c.isAlpha = true := by decide +kernel
    exact all c this
  refine ⟨?_, fun c hc => (key c hc).2.1, List.all_eq_true.2 fun c hc => (key c hc).2.2⟩
  unfold underscored
  conv => rhs; rw [← List.map_id s]
  exact List.map_congr_left fun c hc => (key c hc).1

/-- Form of the generated names. -/
theorem ponyHandlerName_form {shuffled : Nat → List Str} (hs : Shuffle shuffled) (k : Nat)
    (hk : k < ponyLimit) :
    ∃ base suffix, (shuffled (k / 74))[k % 74]? = some base ∧ base ∈ ponyPortion ∧
      ponyHandlerName shuffled k = .ok (underscored base ++ suffix) ∧
      (∀ c ∈ suffix, isLowerAscii c = false) ∧
      (suffix.all fun c => c.isAlpha || c == '_') = true ∧
      ((k / 74 = 0 ∧ suffix = []) ∨ ∃ r, roman (k / 74 + 1) = .ok r ∧ suffix = '_' :: r ∧ k / 74 ≠ 0) := by
  have hlen : (shuffled (k / 74)).length = 74 := by rw [(hs _).length_eq, portion_length]
  have hlt : k % 74 < (shuffled (k / 74)).length := by rw [hlen]; omega
  have hget := List.getElem?_eq_getElem hlt
  generalize (shuffled (k / 74))[k % 74] = base at hget
  have hbase : base ∈ ponyPortion := (hs _).mem_iff.1 (List.mem_of_getElem? hget)
  by_cases h0 : k / 74 = 0
  · refine ⟨base, [], hget, hbase, ?_, by simp, rfl, .inl ⟨h0, rfl⟩⟩
    unfold ponyHandlerName nextPony ponyEpochName
    rw [portion_length, hget]
    simp only [h0, if_true, List.append_nil]
    rfl
  · have hr : k / 74 + 1 < 5000 := by unfold ponyLimit at hk; omega
    obtain ⟨r, hr, _, hch⟩ := roman_ok _ hr
    obtain ⟨hu, hl, ha⟩ := roman_chars hch
    refine ⟨base, '_' :: r, hget, hbase, ?_, ?_, ?_, .inr ⟨r, hr, rfl, h0⟩⟩
    · unfold ponyHandlerName nextPony ponyEpochName
      rw [portion_length, hget]
      dsimp only
      rw [if_neg h0, hr]
      show Except.ok (underscored (base ++ " ".toList ++ r)) = _
      rw [underscored_append, underscored_append, hu, List.append_assoc]
      rfl
    · intro c hc
      rcases List.mem_cons.1 hc with rfl | hc
      · decide
      · exact hl c hc
    · rw [List.all_cons, Bool.and_eq_true]
      refine ⟨by decide, ?_⟩
      rw [List.all_eq_true] at ha ⊢
      intro c hc
      rw [ha c hc]; rfl

/-- **C46**: the names generated for handlers registered without a name are pairwise distinct, whatever
the shuffling. Missing from the full property: "for any number of registrations" - the generator stops
with `IndexError` after `4999 * 74` names (`C46_names_never_end_fails`). -/
theorem C46_generated_names_are_distinct_partial (shuffled : Nat → List Str) (hs : Shuffle shuffled)
    (i j : Nat) (hi : i < 4999 * 74) (hj : j < 4999 * 74) (hij : i ≠ j) :
    ∃ a b, ponyHandlerName shuffled i = .ok a ∧ ponyHandlerName shuffled j = .ok b ∧ a ≠ b := by
  obtain ⟨x, sx, gx, mx, nx, lx, _, ex⟩ := ponyHandlerName_form hs i hi
  obtain ⟨y, sy, gy, my, ny, ly, _, ey⟩ := ponyHandlerName_form hs j hj
  refine ⟨_, _, nx, ny, fun he => hij ?_⟩
  have hxy : underscored x = underscored y := by
    rw [← trimTail_append _ _ (portion_last x mx) lx, he, trimTail_append _ _ (portion_last y my) ly]
  have hsuf : sx = sy := by
    rw [hxy] at he
    exact List.append_cancel_left he
  have hxy' : x = y := List.inj_on_of_nodup_map portion_nodup mx my hxy
  subst hxy'
  have hepoch : i / 74 = j / 74 := by
    rcases ex with ⟨ex, rfl⟩ | ⟨r, hr, rfl, -⟩ <;> rcases ey with ⟨ey, hy⟩ | ⟨r', hr', hy, -⟩
    · omega
    · subst hsuf; cases hy
    · subst hsuf; cases hy
    · subst hsuf; cases hy
      have := C47_roman_numerals_are_distinct _ _ _ hr hr'
      omega
  rw [hepoch] at gx
  have hnd : (shuffled (j / 74)).Nodup := (hs _).nodup_iff.2 (List.Nodup.of_map _ portion_nodup)
  have hlen : (shuffled (j / 74)).length = 74 := by rw [(hs _).length_eq, portion_length]
  have hmod : i % 74 = j % 74 := by
    have h1 : i % 74 < (shuffled (j / 74)).length := by rw [hlen]; omega
    have h2 : j % 74 < (shuffled (j / 74)).length := by rw [hlen]; omega
    rw [List.getElem?_eq_getElem h1] at gx
    rw [List.getElem?_eq_getElem h2] at gy
    refine (List.Nodup.getElem_inj_iff hnd (hi := h1) (hj := h2)).1 ?_
    exact (Option.some.inj gx).trans (Option.some.inj gy).symm
  omega

/-- **C46**: every generated name is a valid name: ASCII letters and underscores, beginning with a
letter (so in particular it contains no dot and no space). Same limit as above. -/
theorem C46_generated_names_are_identifiers_partial (shuffled : Nat → List Str) (hs : Shuffle shuffled)
    (k : Nat) (hk : k < 4999 * 74) :
    ∃ c rest, ponyHandlerName shuffled k = .ok (c :: rest) ∧ c.isAlpha = true ∧
      ∀ d ∈ rest, d.isAlpha = true ∨ d = '_' := by
  obtain ⟨x, sx, gx, mx, nx, lx, ax, _⟩ := ponyHandlerName_form hs k hk
  have hp := portion_plain x mx
  unfold plainId at hp
  cases hu : underscored x with
  | nil => rw [hu] at hp; cases hp
  | cons c rest =>
    rw [hu] at hp nx
    rw [Bool.and_eq_true] at hp
    refine ⟨c, rest ++ sx, nx, hp.1, ?_⟩
    intro d hd
    have : (d.isAlpha || d == '_') = true := by
      rcases List.mem_append.1 hd with hd | hd
      · exact List.all_eq_true.1 hp.2 d hd
      · exact List.all_eq_true.1 ax d hd
    simpa using this

/-- Every name of the portion is made of two halves. -/
theorem portion_isPony : ∀ s ∈ ponyPortion, ∃ p, IsPony p ∧ underscored s = p.toList := by
  intro s hs
  have cases_of : ∀ {first second : List Str} {pre s : Str}, s ∈ halfsCombinations first second pre →
      ∃ a ∈ first, ∃ b ∈ second, s = pre ++ a ++ b := by
    intro first second pre s h
    unfold halfsCombinations at h
    rw [List.mem_flatMap] at h
    obtain ⟨a, ha, h⟩ := h
    rw [List.mem_map] at h
    obtain ⟨b, hb, rfl⟩ := h
    exact ⟨a, ha, b, hb, rfl⟩
  rcases List.mem_append.1 hs with h | h
  · obtain ⟨_, ha0, _, hb0, rfl⟩ := cases_of h
    obtain ⟨a, ha, rfl⟩ := List.mem_map.1 ha0
    obtain ⟨b, hb, rfl⟩ := List.mem_map.1 hb0
    have hb' : ∃ b' ∈ ["_Sparkle", "jack", "shy", "ty", "_Pie", "_Dash", "_Hooves"], underscored b.toList = b'.toList :=
      (by decide +kernel : ∀ b ∈ [" Sparkle", "jack", "shy", "ty", " Pie", " Dash", " Hooves"],
        ∃ b' ∈ ["_Sparkle", "jack", "shy", "ty", "_Pie", "_Dash", "_Hooves"], underscored b.toList = b'.toList) b hb
    have ha' : underscored a.toList = a.toList :=
      (by decide +kernel : ∀ a ∈ ["Twilight", "Apple", "Flutter", "Rari", "Pinkie", "Rainbow", "Derpy"],
        underscored a.toList = a.toList) a ha
    obtain ⟨b', h1, h2⟩ := hb'
    exact ⟨a ++ b', .pony a b' ha h1, by rw [List.nil_append, underscored_append, ha', h2, String.toList_append]⟩
  · obtain ⟨_, ha0, _, hb0, rfl⟩ := cases_of h
    obtain ⟨a, ha, rfl⟩ := List.mem_map.1 ha0
    obtain ⟨b, hb, rfl⟩ := List.mem_map.1 hb0
    have ha' : underscored a.toList = a.toList :=
      (by decide +kernel : ∀ a ∈ ["Cad", "Sky", "Amo", "Cele", "Lu"], underscored a.toList = a.toList) a ha
    have hb' : underscored b.toList = b.toList :=
      (by decide +kernel : ∀ a ∈ ["ance", "star", "re", "stia", "na"], underscored a.toList = a.toList) b hb
    have hp : underscored "Princess ".toList = "Princess_".toList := by decide +kernel
    exact ⟨"Princess_" ++ a ++ b, .princess a b ha hb, by
      rw [underscored_append, underscored_append, ha', hb', hp, String.toList_append, String.toList_append]⟩

/-- **C46**: what the names look like. The first 74 are those of ponies and princesses with exchanged halves; after every 74 names they
come again, in another order, with the next Roman numeral. -/
theorem C46_what_a_generated_name_is (shuffled : Nat → List Str) (hs : Shuffle shuffled) (k : Nat) (hk : k < ponyLimit) :
    ∃ p, IsPony p ∧ ponyHandlerName shuffled k = .ok (p.toList ++ if k < 74 then [] else '_' :: usual (k / 74 + 1)) := by
  obtain ⟨base, suffix, -, h1, h2, -, -, h3⟩ := ponyHandlerName_form hs k hk
  obtain ⟨p, hp, e⟩ := portion_isPony base h1
  refine ⟨p, hp, ?_⟩
  rw [h2, e]
  by_cases h74 : k < 74
  · rcases h3 with ⟨-, rfl⟩ | ⟨r, hr, rfl, h0⟩
    · rw [if_pos h74]
    · omega
  · rcases h3 with ⟨h0, -⟩ | ⟨r, hr, rfl, -⟩
    · omega
    · rw [C47_roman_numeral_is_the_usual_one _ (by unfold ponyLimit at hk; omega)] at hr
      cases hr
      rw [if_neg h74]

-- the names without shuffling
example : Shuffle (fun _ => ponyPortion) ∧
    ponyHandlerName (fun _ => ponyPortion) 0 = .ok "Twilight_Sparkle".toList ∧
    ponyHandlerName (fun _ => ponyPortion) (74 + 53) = .ok "Princess_Cadna_II".toList :=
  ⟨fun _ => .refl _, by decide +kernel, by decide +kernel⟩

/-- **C46** fails without the bound: the generator ends with `IndexError`. -/
theorem C46_names_never_end_fails :
    ¬ ∀ (shuffled : Nat → List Str), Shuffle shuffled → ∀ k, ∃ s, ponyHandlerName shuffled k = .ok s := by
  intro h
  obtain ⟨s, hs⟩ := h (fun _ => ponyPortion) (fun _ => .refl _) (4999 * 74)
  unfold ponyHandlerName nextPony ponyEpochName at hs
  rw [portion_length] at hs
  have : ponyPortion[4999 * 74 % 74]? = some "Twilight Sparkle".toList := by decide +kernel
  rw [this] at hs
  dsimp only at hs
  rw [if_neg (by decide), C47_no_numeral_from_5000 _ (by decide)] at hs
  cases hs

end Polog
