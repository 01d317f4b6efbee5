import Verif.Tokens.Spec
import Verif.Tokens.Model

/-! C39: the language of token patterns. -/

namespace Polog
open TokenSpec

/-! ### Writing and parsing -/

theorem parse_inn (b : Char) (v : Str) (hv : '[' ∉ v ∧ ']' ∉ v) : ∀ (into rest : Str),
    parseFrom (.inn b into) (v ++ ']' :: rest) =
      match parseFrom (.out (some b)) rest with
      | .error e => .error e
      | .ok us => .ok (⟨b, some (into ++ v)⟩ :: us) := by
  induction v with
  | nil =>
    intro into rest
    rw [List.nil_append, parseFrom, if_neg (by decide), if_pos rfl, List.append_nil]
    cases parseFrom (.out (some b)) rest <;> rfl
  | cons c v ih =>
    intro into rest
    simp only [List.mem_cons, not_or] at hv
    rw [List.cons_append, parseFrom, if_neg (fun h => hv.1.1 h.symm), if_neg (fun h => hv.2.1 h.symm),
      ih ⟨hv.1.2, hv.2.2⟩]
    rw [List.append_assoc]
    rfl

theorem write_head (us : List PUnit) (h : ∀ u ∈ us, Writable u) : (write us).head? ≠ some '[' := by
  cases us with
  | nil => simp [write]
  | cons u us =>
    have := (h u (by simp)).1
    simp only [write, List.flatMap_cons]
    cases u.value <;> simpa using this

theorem parseFrom_write (us : List PUnit) (h : ∀ u ∈ us, Writable u) : ∀ base,
    parseFrom (.out base) (write us) = .ok us := by
  induction us with
  | nil => intro base; rfl
  | cons u us ih =>
    intro base
    have ih := ih (fun v hv => h v (by simp [hv]))
    obtain ⟨h1, h2, h3, h4⟩ := h u (by simp)
    have hw : write (u :: us) = (match u.value with
      | none => [u.letter]
      | some v => u.letter :: '[' :: v ++ [']']) ++ write us := rfl
    have hhead := write_head us (fun v hv => h v (by simp [hv]))
    obtain ⟨l, v⟩ := u
    cases v with
    | none =>
      rw [hw]
      dsimp only at h1 h2 ⊢
      rw [List.singleton_append, parseFrom.eq_def]
      dsimp only
      rw [if_neg h1, if_neg h2, if_pos hhead, ih]
    | some v =>
      rw [hw]
      dsimp only at h1 h2 h3 ⊢
      have : l :: '[' :: v ++ [']'] ++ write us = l :: '[' :: (v ++ ']' :: write us) := by simp
      rw [this, parseFrom.eq_def]
      dsimp only
      rw [if_neg h1, if_neg h2, if_neg (by simp), parseFrom.eq_def]
      dsimp only
      rw [if_pos rfl]
      rw [if_neg (fun e => nomatch (h3 e)), parse_inn l v (h4 v rfl), ih]
      rfl

/-! ### Removing double stars -/

theorem Matches.cons_iff {u : PUnit} {us : List PUnit} {ts : List Tok} (hu : u.letter ≠ '*') :
    Matches (u :: us) ts ↔ ∃ t ts', ts = t :: ts' ∧ Fits u t ∧ Matches us ts' := by
  constructor
  · intro h
    cases h with
    | star h _ => exact absurd h hu
    | one _ hf hm => exact ⟨_, _, rfl, hf, hm⟩
  · rintro ⟨t, ts', rfl, hf, hm⟩
    exact .one hu hf hm

theorem Matches.star_iff {u : PUnit} {us : List PUnit} {ts : List Tok} (hu : u.letter = '*') :
    Matches (u :: us) ts ↔ ∃ a b, ts = a ++ b ∧ Matches us b := by
  constructor
  · intro h
    cases h with
    | star _ hm => exact ⟨_, _, rfl, hm⟩
    | one h _ _ => exact absurd hu h
  · rintro ⟨a, b, rfl, hm⟩
    exact .star hu hm

theorem Matches.reduce (us : List PUnit) : ∀ ts, Matches (reducePattern us) ts ↔ Matches us ts := by
  induction us with
  | nil => intro ts; rfl
  | cons u us ih =>
    intro ts
    cases us with
    | nil => rfl
    | cons v us =>
      rw [reducePattern]
      by_cases h : u.letter = '*' ∧ v.letter = '*'
      · rw [if_pos h, ih, Matches.star_iff h.1]
        constructor
        · intro hm
          exact ⟨[], ts, rfl, hm⟩
        · rintro ⟨a, b, rfl, hm⟩
          rw [Matches.star_iff h.2] at hm ⊢
          obtain ⟨c, d, rfl, hm⟩ := hm
          exact ⟨a ++ c, d, by simp, hm⟩
      · rw [if_neg h]
        by_cases hu : u.letter = '*'
        · rw [Matches.star_iff hu, Matches.star_iff hu]
          simp only [ih]
        · rw [Matches.cons_iff hu, Matches.cons_iff hu]
          simp only [ih]

/-- No two stars side by side. -/
def Reduced : List PUnit → Prop
  | [] => True
  | [_] => True
  | u :: v :: us => ¬ (u.letter = '*' ∧ v.letter = '*') ∧ Reduced (v :: us)

theorem reducePattern_head (u : PUnit) (us : List PUnit) :
    ∃ v vs, reducePattern (u :: us) = v :: vs ∧ (u.letter = '*' ↔ v.letter = '*') := by
  induction us generalizing u with
  | nil => exact ⟨u, [], rfl, Iff.rfl⟩
  | cons w us ih =>
    rw [reducePattern]
    by_cases h : u.letter = '*' ∧ w.letter = '*'
    · rw [if_pos h]
      obtain ⟨v, vs, he, hv⟩ := ih w
      exact ⟨v, vs, he, ⟨fun _ => hv.1 h.2, fun _ => h.1⟩⟩
    · rw [if_neg h]
      exact ⟨u, _, rfl, Iff.rfl⟩

theorem reducePattern_reduced (us : List PUnit) : Reduced (reducePattern us) := by
  induction us with
  | nil => trivial
  | cons u us ih =>
    cases us with
    | nil => trivial
    | cons v us =>
      rw [reducePattern]
      by_cases h : u.letter = '*' ∧ v.letter = '*'
      · rw [if_pos h]; exact ih
      · rw [if_neg h]
        obtain ⟨w, ws, he, hw⟩ := reducePattern_head v us
        rw [he] at ih ⊢
        exact ⟨fun hh => h ⟨hh.1, hw.2 hh.2⟩, ih⟩

/-! ### The matching loop -/

theorem compareUnit_iff {u : PUnit} (hu : u.letter ≠ '*') (t : Tok) :
    compareUnit u t = true ↔ Fits u t := by
  unfold compareUnit Fits
  rw [if_neg hu]
  cases hv : u.value with
  | none =>
    by_cases hd : u.letter = '.'
    · simp [hd]
    · by_cases he : u.letter = t.letter <;> simp [hd, he]
  | some v =>
    by_cases hd : u.letter = '.'
    · rw [if_pos hd]
      simp only [hd, true_or, true_and, beq_iff_eq, Option.some.injEq]
      exact ⟨fun h w hw => hw ▸ h.symm, fun h => (h v rfl).symm⟩
    · rw [if_neg hd]
      by_cases he : u.letter = t.letter
      · rw [if_neg (by simp [he])]
        simp only [he, or_true, true_and, beq_iff_eq, Option.some.injEq]
        exact ⟨fun h w hw => hw ▸ h.symm, fun h => (h v rfl).symm⟩
      · simp [hd, he]

/-- A reduced pattern of two or more elements that begins with a star does not fit nothing. -/
theorem Reduced.not_nil {u v : PUnit} {us : List PUnit} (h : Reduced (u :: v :: us)) :
    ¬ Matches (u :: v :: us) [] := by
  intro hm
  by_cases hu : u.letter = '*'
  · obtain ⟨a, b, hab, hm⟩ := (Matches.star_iff hu).1 hm
    have hb : b = [] := (List.append_eq_nil_iff.1 hab.symm).2
    subst hb
    have hv : v.letter ≠ '*' := fun hv => h.1 ⟨hu, hv⟩
    obtain ⟨_, _, he, _⟩ := (Matches.cons_iff hv).1 hm
    cases he
  · obtain ⟨_, _, he, _⟩ := (Matches.cons_iff hu).1 hm
    cases he

theorem matches_nil_star_only {us : List PUnit} (h : Reduced us) (hne : us ≠ []) :
    Matches us [] ↔ ∃ u, us = [u] ∧ u.letter = '*' := by
  cases us with
  | nil => exact absurd rfl hne
  | cons u us =>
    cases us with
    | nil =>
      constructor
      · intro hm
        by_cases hu : u.letter = '*'
        · exact ⟨u, rfl, hu⟩
        · obtain ⟨_, _, he, _⟩ := (Matches.cons_iff hu).1 hm
          cases he
      · rintro ⟨w, hw, hs⟩
        cases hw
        exact (Matches.star_iff hs).2 ⟨[], [], rfl, .nil⟩
    | cons v us =>
      constructor
      · intro hm; exact absurd hm h.not_nil
      · rintro ⟨w, hw, _⟩; cases hw

theorem anySuffix_spec (f : List Tok → Except PyErr Bool) (P : List Tok → Prop) (ts : List Tok)
    (hf : ∀ ts, ts ≠ [] → ∃ b, f ts = .ok b ∧ (b = true ↔ P ts)) :
    ∃ b, anySuffix f ts = .ok b ∧ (b = true ↔ ∃ a c, ts = a ++ c ∧ c ≠ [] ∧ P c) := by
  induction ts with
  | nil =>
    refine ⟨false, rfl, by simp, ?_⟩
    rintro ⟨a, c, he, hc, _⟩
    exact absurd (List.append_eq_nil_iff.1 he.symm).2 hc
  | cons t ts ih =>
    obtain ⟨b, hb, hp⟩ := hf (t :: ts) (by simp)
    rw [anySuffix, hb]
    cases b with
    | true => exact ⟨true, rfl, ⟨fun _ => ⟨[], t :: ts, rfl, by simp, hp.1 rfl⟩, fun _ => rfl⟩⟩
    | false =>
      obtain ⟨b', hb', hp'⟩ := ih
      refine ⟨b', hb', hp'.trans ?_⟩
      constructor
      · rintro ⟨a, c, rfl, hc, h⟩
        exact ⟨t :: a, c, rfl, hc, h⟩
      · rintro ⟨a, c, he, hc, h⟩
        cases a with
        | nil =>
          rw [List.nil_append] at he
          subst he
          exact absurd (hp.2 h) (by simp)
        | cons x a =>
          cases he
          exact ⟨a, c, rfl, hc, h⟩

theorem regexpLoop_spec (us : List PUnit) : us ≠ [] → Reduced us → ∀ ts, ts ≠ [] →
    ∃ b, regexpLoop us ts = .ok b ∧ (b = true ↔ Matches us ts) := by
  induction us with
  | nil => intro h; exact absurd rfl h
  | cons u us ih =>
    intro _ hred ts hts
    cases us with
    | nil =>
      have key : Matches [u] ts ↔ u.letter = '*' ∨ ∃ t, ts = [t] ∧ Fits u t := by
        by_cases hu : u.letter = '*'
        · exact ⟨fun _ => .inl hu, fun _ => (Matches.star_iff hu).2 ⟨ts, [], by simp, .nil⟩⟩
        · rw [Matches.cons_iff hu]
          constructor
          · rintro ⟨t, ts', rfl, hf, hm⟩
            cases hm
            exact .inr ⟨t, rfl, hf⟩
          · rintro (h | ⟨t, rfl, hf⟩)
            · exact absurd h hu
            · exact ⟨t, [], rfl, hf, .nil⟩
      match ts, hts with
      | [t], _ =>
        refine ⟨_, rfl, ?_⟩
        rw [key]
        by_cases hu : u.letter = '*'
        · simp [compareUnit, hu]
        · rw [compareUnit_iff hu]
          simp [hu]
      | t :: t2 :: ts', _ =>
        refine ⟨_, rfl, ?_⟩
        rw [key]
        simp
    | cons v us =>
      have ih := ih (by simp) hred.2
      match ts, hts with
      | [t], _ =>
        rw [regexpLoop.eq_def]
        dsimp only
        by_cases hu : u.letter = '*'
        · rw [if_pos hu]
          obtain ⟨b, hb, hp⟩ := ih [t] (by simp)
          refine ⟨b, hb, hp.trans ?_⟩
          rw [Matches.star_iff hu]
          constructor
          · intro h; exact ⟨[], [t], rfl, h⟩
          · rintro ⟨a, c, he, hm⟩
            cases a with
            | nil => rw [List.nil_append] at he; subst he; exact hm
            | cons x a =>
              cases a with
              | cons y a => cases he
              | nil =>
                simp only [List.singleton_append, List.cons.injEq] at he
                obtain ⟨_, rfl⟩ := he
                have hv : v.letter ≠ '*' := fun hv => hred.1 ⟨hu, hv⟩
                obtain ⟨_, _, he, _⟩ := (Matches.cons_iff hv).1 hm
                cases he
        · rw [if_neg hu]
          refine ⟨_, rfl, ?_⟩
          rw [Matches.cons_iff hu]
          simp only [Bool.and_eq_true, decide_eq_true_eq, compareUnit_iff hu]
          constructor
          · rintro ⟨⟨hf, rfl⟩, hv⟩
            exact ⟨t, [], rfl, hf, (Matches.star_iff hv).2 ⟨[], [], rfl, .nil⟩⟩
          · rintro ⟨t', ts', he, hf, hm⟩
            cases he
            obtain ⟨w, hw, hs⟩ := (matches_nil_star_only hred.2 (by simp)).1 hm
            cases hw
            exact ⟨⟨hf, rfl⟩, hs⟩
      | t :: t2 :: ts', _ =>
        rw [regexpLoop.eq_def]
        dsimp only
        by_cases hu : u.letter = '*'
        · rw [if_pos hu]
          obtain ⟨b, hb, hp⟩ := anySuffix_spec (regexpLoop (v :: us)) (Matches (v :: us))
            (t :: t2 :: ts') ih
          refine ⟨b, hb, hp.trans ?_⟩
          rw [Matches.star_iff hu]
          constructor
          · rintro ⟨a, c, he, _, hm⟩; exact ⟨a, c, he, hm⟩
          · rintro ⟨a, c, he, hm⟩
            refine ⟨a, c, he, ?_, hm⟩
            rintro rfl
            have hv : v.letter ≠ '*' := fun hv => hred.1 ⟨hu, hv⟩
            obtain ⟨_, _, he, _⟩ := (Matches.cons_iff hv).1 hm
            cases he
        · rw [if_neg hu]
          have hc := compareUnit_iff hu t
          cases hcmp : compareUnit u t with
          | true =>
            rw [if_pos rfl]
            obtain ⟨b, hb, hp⟩ := ih (t2 :: ts') (by simp)
            refine ⟨b, hb, hp.trans ?_⟩
            rw [Matches.cons_iff hu]
            constructor
            · intro h; exact ⟨t, _, rfl, hc.1 hcmp, h⟩
            · rintro ⟨t', ts'', he, _, hm⟩; cases he; exact hm
          | false =>
            rw [if_neg (by simp)]
            refine ⟨false, rfl, by simp, ?_⟩
            intro hm
            obtain ⟨t', ts'', he, hf, _⟩ := (Matches.cons_iff hu).1 hm
            cases he
            rw [hc.2 hf] at hcmp
            cases hcmp

/-- **C39**: a group of tokens matches a written pattern iff the sequence of its tokens is in the language
of the pattern; matching never fails with an exception. Missing from the full property: the empty
pattern, which matches everything, and empty groups (`C39_empty_pattern_fails`,
`C39_empty_group_fails`). -/
theorem C39_patterns_match_their_language_partial (us : List PUnit) (tokens : List Tok)
    (hw : ∀ u ∈ us, Writable u) (hus : us ≠ []) (hts : tokens ≠ []) :
    ∃ b, checkRegexp tokens (write us) = .ok b ∧ (b = true ↔ Matches us tokens) := by
  have hne : write us ≠ [] := by
    cases us with
    | nil => exact absurd rfl hus
    | cons u us =>
      simp only [write, List.flatMap_cons]
      cases u.value <;> simp
  unfold checkRegexp parsePattern
  rw [if_neg hne, parseFrom_write us hw]
  dsimp only
  have hne' : reducePattern us ≠ [] := by
    cases us with
    | nil => exact absurd rfl hus
    | cons u us =>
      obtain ⟨v, vs, he, _⟩ := reducePattern_head u us
      rw [he]; simp
  obtain ⟨b, hb, hp⟩ := regexpLoop_spec _ hne' (reducePattern_reduced us) tokens hts
  exact ⟨b, hb, hp.trans (Matches.reduce us tokens)⟩

-- the pattern `*n[5]s` and the tokens of "every 5 mb"
example : write [⟨'*', none⟩, ⟨'n', some "5".toList⟩, ⟨'s', none⟩] = "*n[5]s".toList ∧
    (∀ u ∈ ([⟨'*', none⟩, ⟨'n', some "5".toList⟩, ⟨'s', none⟩] : List PUnit), Writable u) ∧
    checkRegexp [⟨'d', "every".toList⟩, ⟨'n', "5".toList⟩, ⟨'s', "mb".toList⟩] "*n[5]s".toList = .ok true := by
  refine ⟨by decide, ?_, by rfl⟩
  intro u hu
  simp only [List.mem_cons, List.not_mem_nil, or_false] at hu
  rcases hu with rfl | rfl | rfl
  · exact ⟨by decide, by decide, fun _ => rfl, by simp⟩
  · exact ⟨by decide, by decide, fun h => absurd h (by decide), by
      intro v hv; cases hv; decide⟩
  · exact ⟨by decide, by decide, fun _ => rfl, by simp⟩

/-- **C39** fails for the empty pattern: it accepts any tokens. -/
theorem C39_empty_pattern_fails :
    ¬ ∀ tokens, checkRegexp tokens (write []) = .ok true → Matches [] tokens := by
  intro h
  have := h [⟨'d', "x".toList⟩] rfl
  cases this

/-- **C39** fails for empty groups: a pattern of two letters raises `IndexError` instead of not matching. -/
theorem C39_empty_group_fails :
    ¬ ∀ us, (∀ u ∈ us, Writable u) → us ≠ [] → ∃ b, checkRegexp [] (write us) = .ok b := by
  intro h
  obtain ⟨b, hb⟩ := h [⟨'n', none⟩, ⟨'s', none⟩] (by
    intro u hu
    simp only [List.mem_cons, List.not_mem_nil, or_false] at hu
    rcases hu with rfl | rfl <;> exact ⟨by decide, by decide, fun _ => rfl, by simp⟩) (by simp)
  have : checkRegexp [] (write [⟨'n', none⟩, ⟨'s', none⟩]) = .error .indexError := by rfl
  rw [this] at hb
  cases hb

end Polog
