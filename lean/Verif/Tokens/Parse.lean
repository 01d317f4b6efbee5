import Verif.Tokens.Props

/-! What every pattern of tokens means, also those that are written wrongly (C39). -/

namespace Polog
namespace TokenSpec

/-- The two characters that are no letters of tokens. -/
def Bracket (c : Char) : Prop := c = '[' ∨ c = ']'

/-- How a pattern is read, after the letter `b` (`none`: at its beginning). A letter is an element, unless brackets follow;
every pair of brackets is an element of the letter before them, which must not be `*`; brackets that are not closed are
forgotten, together with their letter. -/
inductive Reads : Option Char → Str → List PUnit → Prop
  | nil (b : Option Char) : Reads b [] []
  | letter (b : Option Char) (c : Char) (rest : Str) (us : List PUnit) : ¬ Bracket c → rest.head? ≠ some '[' →
      Reads (some c) rest us → Reads b (c :: rest) (⟨c, none⟩ :: us)
  | holder (b : Option Char) (c : Char) (rest : Str) (us : List PUnit) : ¬ Bracket c → rest.head? = some '[' →
      Reads (some c) rest us → Reads b (c :: rest) us
  | value (b : Char) (v rest : Str) (us : List PUnit) : b ≠ '*' → (∀ c ∈ v, ¬ Bracket c) →
      Reads (some b) rest us → Reads (some b) ('[' :: (v ++ ']' :: rest)) (⟨b, some v⟩ :: us)
  | unclosed (b : Char) (v : Str) : b ≠ '*' → (∀ c ∈ v, ¬ Bracket c) → Reads (some b) ('[' :: v) []

end TokenSpec
open TokenSpec

/-- Inside of brackets: what was collected, and the rest. -/
theorem parse_inside (b : Char) : ∀ (v into rest : Str), (∀ c ∈ v, ¬ Bracket c) →
    parseFrom (.inn b into) (v ++ ']' :: rest) =
      (match parseFrom (.out (some b)) rest with
      | .error e => .error e
      | .ok us => .ok (⟨b, some (into ++ v)⟩ :: us)) := by
  intro v
  induction v with
  | nil =>
    intro into rest _
    simp only [List.nil_append, parseFrom, List.append_nil]
    rfl
  | cons c v ih =>
    intro into rest h
    have hc := h c (by simp)
    simp only [Bracket, not_or] at hc
    simp only [List.cons_append, parseFrom, if_neg hc.1, if_neg hc.2]
    rw [ih _ _ (fun c' h' => h c' (by simp [h']))]
    simp

theorem parse_inside_end (b : Char) : ∀ (v into : Str), (∀ c ∈ v, ¬ Bracket c) → parseFrom (.inn b into) v = .ok [] := by
  intro v
  induction v with
  | nil => intro into _; rfl
  | cons c v ih =>
    intro into h
    have hc := h c (by simp)
    simp only [Bracket, not_or] at hc
    simp only [parseFrom, if_neg hc.1, if_neg hc.2]
    exact ih _ (fun c' h' => h c' (by simp [h']))

theorem parse_reads {b : Option Char} {p : Str} {us : List PUnit} (h : Reads b p us) : parseFrom (.out b) p = .ok us := by
  induction h with
  | nil b => cases b <;> rfl
  | letter b c rest us hc hr _ ih =>
    simp only [Bracket, not_or] at hc
    simp only [parseFrom, if_neg hc.1, if_neg hc.2, if_pos hr, ih]
  | holder b c rest us hc hr _ ih =>
    simp only [Bracket, not_or] at hc
    simp only [parseFrom, if_neg hc.1, if_neg hc.2, hr, ne_eq, not_true, if_false, ih]
  | value b v rest us hb hv _ ih =>
    simp only [parseFrom, if_true, if_neg hb]
    rw [parse_inside b v [] rest hv, ih]
    rfl
  | unclosed b v hb hv =>
    simp only [parseFrom, if_true, if_neg hb]
    exact parse_inside_end b v [] hv

/-- What the states of the loop have to do with the reading. -/
def StateReads : PState → Str → List PUnit → Prop
  | .out b, p, us => Reads b p us
  | .inn b into, p, us =>
    (∃ v rest us', p = v ++ ']' :: rest ∧ (∀ c ∈ v, ¬ Bracket c) ∧ Reads (some b) rest us' ∧ us = ⟨b, some (into ++ v)⟩ :: us') ∨
    ((∀ c ∈ p, ¬ Bracket c) ∧ us = [])

theorem parse_cases (p : Str) : ∀ st, parseFrom st p = .error .valueError ∨ ∃ us, parseFrom st p = .ok us ∧ StateReads st p us := by
  induction p with
  | nil =>
    intro st
    cases st with
    | out b => exact .inr ⟨[], by cases b <;> rfl, .nil b⟩
    | inn b into => exact .inr ⟨[], rfl, .inr ⟨by simp, rfl⟩⟩
  | cons c rest ih =>
    intro st
    cases st with
    | out b =>
      by_cases h1 : c = '['
      · subst h1
        cases b with
        | none => exact .inl (by simp [parseFrom])
        | some b =>
          by_cases hb : b = '*'
          · exact .inl (by simp [parseFrom, hb])
          · have e : parseFrom (.out (some b)) ('[' :: rest) = parseFrom (.inn b []) rest := by simp [parseFrom, hb]
            rw [e]
            rcases ih (.inn b []) with h | ⟨us, h, hr⟩
            · exact .inl h
            · refine .inr ⟨us, h, ?_⟩
              rcases hr with ⟨v, r, us', rfl, hv, hr, rfl⟩ | ⟨hv, rfl⟩
              · exact .value b v r us' hb hv hr
              · exact .unclosed b rest hb hv
      by_cases h2 : c = ']'
      · subst h2
        exact .inl (by simp [parseFrom])
      have hc : ¬ Bracket c := by simp [Bracket, h1, h2]
      rcases ih (.out (some c)) with h | ⟨us, h, hr⟩
      · left
        by_cases hh : rest.head? = some '[' <;> simp [parseFrom, h1, h2, hh, h]
      · by_cases hh : rest.head? = some '['
        · exact .inr ⟨us, by simp [parseFrom, h1, h2, hh, h], .holder b c rest us hc hh hr⟩
        · exact .inr ⟨⟨c, none⟩ :: us, by simp [parseFrom, h1, h2, hh, h], .letter b c rest us hc hh hr⟩
    | inn b into =>
      by_cases h1 : c = '['
      · subst h1
        exact .inl (by simp [parseFrom])
      by_cases h2 : c = ']'
      · subst h2
        rcases ih (.out (some b)) with h | ⟨us, h, hr⟩
        · exact .inl (by simp [parseFrom, h])
        · exact .inr ⟨⟨b, some into⟩ :: us, by simp [parseFrom, h],
            .inl ⟨[], rest, us, rfl, by simp, hr, by simp⟩⟩
      have hc : ¬ Bracket c := by simp [Bracket, h1, h2]
      have e : parseFrom (.inn b into) (c :: rest) = parseFrom (.inn b (into ++ [c])) rest := by simp [parseFrom, h1, h2]
      rw [e]
      rcases ih (.inn b (into ++ [c])) with h | ⟨us, h, hr⟩
      · exact .inl h
      · refine .inr ⟨us, h, ?_⟩
        rcases hr with ⟨v, r, us', rfl, hv, hr, rfl⟩ | ⟨hv, rfl⟩
        · exact .inl ⟨c :: v, r, us', rfl, by simpa using ⟨hc, hv⟩, hr, by simp⟩
        · exact .inr ⟨by simpa using ⟨hc, hv⟩, rfl⟩

/-- **C39**, for every text of a pattern. A text that can be read has exactly one reading; a group of tokens matches it iff the
sequence is in the language of the elements that were read, and it is an `IndexError` if there are none. Every other text is
a `ValueError`. -/
theorem C39_every_pattern (p : Str) (hp : p ≠ []) (tokens : List Tok) (hts : tokens ≠ []) :
    (∀ us, Reads none p us → us ≠ [] → ∃ b, checkRegexp tokens p = .ok b ∧ (b = true ↔ Matches us tokens)) ∧
    (Reads none p [] → checkRegexp tokens p = .error .indexError) ∧
    ((¬ ∃ us, Reads none p us) → checkRegexp tokens p = .error .valueError) ∧
    ∀ us us', Reads none p us → Reads none p us' → us = us' := by
  refine ⟨fun us h hus => ?_, fun h => ?_, fun h => ?_, fun us us' h h' => ?_⟩
  · unfold checkRegexp parsePattern
    rw [if_neg hp, parse_reads h]
    dsimp only
    have hne' : reducePattern us ≠ [] := by
      cases us with
      | nil => exact absurd rfl hus
      | cons u us =>
        obtain ⟨v, vs, he, _⟩ := reducePattern_head u us
        rw [he]; simp
    obtain ⟨b, hb, hb'⟩ := regexpLoop_spec _ hne' (reducePattern_reduced us) tokens hts
    exact ⟨b, hb, hb'.trans (Matches.reduce us tokens)⟩
  · unfold checkRegexp parsePattern
    rw [if_neg hp, parse_reads h]
    rfl
  · unfold checkRegexp parsePattern
    rw [if_neg hp]
    rcases parse_cases p (.out none) with e | ⟨us, -, hr⟩
    · rw [e]
    · exact absurd ⟨us, hr⟩ h
  · have := (parse_reads h).symm.trans (parse_reads h')
    exact Except.ok.inj this

/-- **C39**, for every pattern and the empty group: the answer is right if the pattern begins with `*` or has one element; every other
pattern that can be read is an `IndexError`. -/
theorem C39_every_pattern_of_an_empty_group (p : Str) (u : PUnit) (us : List PUnit) (h : Reads none p (u :: us)) :
    (u.letter = '*' ∨ us = [] → ∃ b, checkRegexp [] p = .ok b ∧ (b = true ↔ Matches (u :: us) [])) ∧
    (u.letter ≠ '*' → us ≠ [] → checkRegexp [] p = .error .indexError) := by
  have hp : p ≠ [] := by rintro rfl; cases h
  have e : checkRegexp [] p = regexpLoop (reducePattern (u :: us)) [] := by
    unfold checkRegexp parsePattern
    rw [if_neg hp, parse_reads h]
  have hred := reducePattern_reduced (u :: us)
  have hm := Matches.reduce (u :: us) []
  obtain ⟨v, vs, he, hs⟩ := reducePattern_head u us
  rw [he] at e hred hm
  rw [e]
  constructor
  · intro hc
    rw [← hm]
    cases vs with
    | nil =>
      refine ⟨decide (v.letter = '*'), rfl, ?_⟩
      rw [decide_eq_true_iff]
      refine ⟨fun hv => .star (skipped := []) hv .nil, fun hh => ?_⟩
      generalize hl : [v] = l, hn : ([] : List Tok) = ts at hh
      cases hh with
      | nil => cases hl
      | star h1 => cases hl; exact h1
      | one => cases hn
    | cons x xs =>
      have hv : v.letter = '*' := by
        rcases hc with hc | rfl
        · exact hs.mp hc
        · cases he
      refine ⟨false, by simp [regexpLoop, hv], by simp, fun hh => ?_⟩
      have hx : x.letter ≠ '*' := fun hx => hred.1 ⟨hv, hx⟩
      generalize hl : v :: x :: xs = l, hn : ([] : List Tok) = ts at hh
      cases hh with
      | nil => cases hl
      | @star _ _ sk ts' h1 h2 =>
        cases hl
        obtain ⟨rfl, rfl⟩ := List.append_eq_nil_iff.mp hn.symm
        generalize hn' : ([] : List Tok) = ts at h2
        cases h2 with
        | star h3 => exact absurd h3 hx
        | one => cases hn'
      | one => cases hn
  · intro hu hus
    have hv : v.letter ≠ '*' := fun hv => hu (hs.mpr hv)
    cases us with
    | nil => exact absurd rfl hus
    | cons w us =>
      rw [reducePattern, if_neg (fun hh => hu hh.1)] at he
      obtain ⟨x, xs, hx, -⟩ := reducePattern_head w us
      rw [hx] at he
      cases he
      simp [regexpLoop, hv]

/-- `s*n[5][6]` is read as `s`, `*`, `n[5]`, `n[6]`; the end of `s*n[5` is forgotten; `*[5]`, `[5]`, `n]` and `n[[` cannot be read. -/
example : Reads none "s*n[5][6]".toList [⟨'s', none⟩, ⟨'*', none⟩, ⟨'n', some "5".toList⟩, ⟨'n', some "6".toList⟩] ∧
    Reads none "s*n[5".toList [⟨'s', none⟩, ⟨'*', none⟩] ∧ Reads none "n[5".toList [] ∧
    ¬ (∃ us, Reads none "*[5]".toList us) ∧ ¬ (∃ us, Reads none "[5]".toList us) ∧
    ¬ (∃ us, Reads none "n]".toList us) ∧ ¬ ∃ us, Reads none "n[[".toList us := by
  have yes : ∀ p us, parseFrom (.out none) p = .ok us → Reads none p us := fun p us h => by
    rcases parse_cases p (.out none) with e | ⟨us', e, hr⟩
    · rw [e] at h; cases h
    · rw [e] at h; cases h; exact hr
  have no : ∀ p, parseFrom (.out none) p = .error .valueError → ¬ ∃ us, Reads none p us := fun p h ⟨us, hr⟩ => by
    rw [parse_reads hr] at h; cases h
  exact ⟨yes _ _ rfl, yes _ _ rfl, yes _ _ rfl, no _ rfl, no _ rfl, no _ rfl, no _ rfl⟩

/-- **C39** fails for brackets that are not closed: the pattern `s*n[5` is accepted and matches what `s*` does, without any `5`. -/
theorem C39_unclosed_brackets_fails :
    checkRegexp [⟨'s', "mb".toList⟩, ⟨'d', "x".toList⟩] "s*n[5".toList = .ok true ∧
    ¬ Matches [⟨'s', none⟩, ⟨'*', none⟩, ⟨'n', some "5".toList⟩] [⟨'s', "mb".toList⟩, ⟨'d', "x".toList⟩] := by
  refine ⟨rfl, fun h => ?_⟩
  have hw : ∀ u ∈ ([⟨'s', none⟩, ⟨'*', none⟩, ⟨'n', some "5".toList⟩] : List PUnit), Writable u := by
    intro u hu
    simp only [List.mem_cons, List.not_mem_nil, or_false] at hu
    rcases hu with rfl | rfl | rfl
    · exact ⟨by decide, by decide, fun _ => rfl, by simp⟩
    · exact ⟨by decide, by decide, fun _ => rfl, by simp⟩
    · exact ⟨by decide, by decide, fun h => absurd h (by decide), by intro v hv; cases hv; decide⟩
  obtain ⟨b, hb, hm⟩ := C39_patterns_match_their_language_partial _ [⟨'s', "mb".toList⟩, ⟨'d', "x".toList⟩] hw (by simp) (by simp)
  have hf : checkRegexp [⟨'s', "mb".toList⟩, ⟨'d', "x".toList⟩] (write [⟨'s', none⟩, ⟨'*', none⟩, ⟨'n', some "5".toList⟩]) = .ok false := rfl
  rw [hf] at hb
  cases hb
  exact absurd (hm.mpr h) (by simp)

end Polog
