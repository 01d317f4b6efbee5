import Verif.Rotation.Spec
import Verif.Tokens.Props
import Mathlib.Data.List.TakeWhile

namespace Polog
open RotationSpec

variable {env : TextEnv}

/-! ### Words -/

theorem wordsFrom_blank (sp : Str) (h : Blank env sp) (rest : Str) :
    wordsFrom env.isSpace [] (sp ++ rest) = wordsFrom env.isSpace [] rest := by
  induction sp with
  | nil => rfl
  | cons c sp ih =>
    rw [List.cons_append, wordsFrom, if_pos (h c (by simp)), if_pos rfl, ih (fun d hd => h d (by simp [hd]))]

theorem wordsFrom_word (w : Str) (h : ∀ c ∈ w, env.isSpace c = false) : ∀ (acc rest : Str),
    wordsFrom env.isSpace acc (w ++ rest) = wordsFrom env.isSpace (acc ++ w) rest := by
  induction w with
  | nil => intro acc rest; simp
  | cons c w ih =>
    intro acc rest
    rw [List.cons_append, wordsFrom, if_neg (by simp [h c (by simp)]), ih (fun d hd => h d (by simp [hd]))]
    simp

/-- What `split()` returns, in terms of the text. -/
inductive SplitsTo (env : TextEnv) : Str → List Str → Prop
  | nil {sp} : Blank env sp → SplitsTo env sp []
  | single {sp w} : Blank env sp → Word env w → SplitsTo env (sp ++ w) [w]
  | cons {sp w c rest ws} : Blank env sp → Word env w → env.isSpace c = true →
      SplitsTo env rest ws → SplitsTo env (sp ++ w ++ c :: rest) (w :: ws)

theorem wordsFrom_acc (acc : Str) (hacc : Word env acc) (s : Str) :
    (∃ w, (∀ c ∈ w, env.isSpace c = false) ∧ s = w ∧ wordsFrom env.isSpace acc s = [acc ++ w]) ∨
    (∃ w c rest, (∀ c ∈ w, env.isSpace c = false) ∧ env.isSpace c = true ∧ s = w ++ c :: rest ∧
      wordsFrom env.isSpace acc s = (acc ++ w) :: wordsFrom env.isSpace [] rest) := by
  induction s generalizing acc with
  | nil =>
    refine .inl ⟨[], by simp, rfl, ?_⟩
    rw [wordsFrom, if_neg hacc.1, List.append_nil]
  | cons c s ih =>
    cases hc : env.isSpace c with
    | true =>
      refine .inr ⟨[], c, s, by simp, hc, rfl, ?_⟩
      rw [wordsFrom, if_pos hc, if_neg hacc.1, List.append_nil]
    | false =>
      have hacc' : Word env (acc ++ [c]) := ⟨by simp, by
        intro d hd
        rcases List.mem_append.1 hd with h | h
        · exact hacc.2 d h
        · rw [List.mem_singleton] at h; subst h; exact hc⟩
      rw [wordsFrom, if_neg (by simp [hc])]
      rcases ih (acc ++ [c]) hacc' with ⟨w, h1, h2, h3⟩ | ⟨w, d, rest, h1, h2, h3, h4⟩
      · refine .inl ⟨c :: w, ?_, by rw [h2], by rw [h3]; simp⟩
        intro d hd
        rcases List.mem_cons.1 hd with rfl | hd
        · exact hc
        · exact h1 d hd
      · refine .inr ⟨c :: w, d, rest, ?_, h2, by rw [h3]; rfl, by rw [h4]; simp⟩
        intro d hd
        rcases List.mem_cons.1 hd with rfl | hd
        · exact hc
        · exact h1 d hd

theorem splitWords_splits (n : Nat) : ∀ s : Str, s.length ≤ n → SplitsTo env s (splitWords env.isSpace s) := by
  induction n with
  | zero =>
    intro s hs
    have : s = [] := List.length_eq_zero_iff.1 (by omega)
    subst this
    exact .nil (fun c hc => nomatch hc)
  | succ n ih =>
    intro s hs
    cases s with
    | nil => exact .nil (fun c hc => nomatch hc)
    | cons c s =>
      simp only [List.length_cons] at hs
      cases hc : env.isSpace c with
      | true =>
        have hr := ih s (by omega)
        have : splitWords env.isSpace (c :: s) = splitWords env.isSpace s := by
          unfold splitWords; rw [wordsFrom, if_pos hc, if_pos rfl]
        rw [this]
        generalize splitWords env.isSpace s = ws at hr
        have hb : ∀ sp, Blank env sp → Blank env (c :: sp) := by
          intro sp h d hd
          rcases List.mem_cons.1 hd with rfl | hd
          · exact hc
          · exact h d hd
        cases hr with
        | nil h => exact .nil (hb _ h)
        | single h hw => exact .single (sp := c :: _) (hb _ h) hw
        | cons h hw hd hr => exact .cons (sp := c :: _) (hb _ h) hw hd hr
      | false =>
        have hw1 : Word env [c] := ⟨by simp, by intro d hd; rw [List.mem_singleton] at hd; subst hd; exact hc⟩
        have he : splitWords env.isSpace (c :: s) = wordsFrom env.isSpace [c] s := by
          unfold splitWords; rw [wordsFrom, if_neg (by simp [hc])]; rfl
        rw [he]
        have hword : ∀ w, (∀ c ∈ w, env.isSpace c = false) → Word env (c :: w) := by
          intro w hw
          refine ⟨by simp, ?_⟩
          intro d hd
          rcases List.mem_cons.1 hd with rfl | hd
          · exact hc
          · exact hw d hd
        rcases wordsFrom_acc [c] hw1 s with ⟨w, h1, h2, h3⟩ | ⟨w, d, rest, h1, h2, h3, h4⟩
        · rw [h3, h2]
          exact .single (sp := []) (fun c hc => nomatch hc) (hword w h1)
        · rw [h4, h3]
          have hr := ih rest (by rw [h3] at hs; simp at hs; omega)
          exact .cons (sp := []) (fun c hc => nomatch hc) (hword w h1) h2 hr

theorem splitWords_two {s a b : Str} : splitWords env.isSpace s = [a, b] ↔
    ∃ x y z, s = x ++ a ++ y ++ b ++ z ∧ Blank env x ∧ Blank env y ∧ y ≠ [] ∧ Blank env z ∧
      Word env a ∧ Word env b := by
  constructor
  · intro h
    have hs := splitWords_splits (env := env) _ s (Nat.le_refl _)
    rw [h] at hs
    generalize hl : [a, b] = l at hs
    cases hs with
    | nil => cases hl
    | single => cases hl
    | cons hx hw hc hr =>
      cases hl
      generalize hl : [b] = l at hr
      rename_i x c rest
      cases hr with
      | nil => cases hl
      | single hy hw' =>
        cases hl
        rename_i y
        exact ⟨x, c :: y, [], by simp, hx, by
          intro d hd
          rcases List.mem_cons.1 hd with rfl | hd
          · exact hc
          · exact hy d hd, by simp, fun c hc => (nomatch hc), hw, hw'⟩
      | cons hy hw' hc' hr' =>
        cases hl
        rename_i y c' rest'
        generalize hl : ([] : List Str) = l at hr'
        cases hr' with
        | nil hz =>
          exact ⟨x, c :: y, c' :: rest', by simp, hx, by
            intro d hd
            rcases List.mem_cons.1 hd with rfl | hd
            · exact hc
            · exact hy d hd, by simp, by
            intro d hd
            rcases List.mem_cons.1 hd with rfl | hd
            · exact hc'
            · exact hz d hd, hw, hw'⟩
        | single => cases hl
        | cons => cases hl
  · rintro ⟨x, y, z, rfl, hx, hy, hyne, hz, ha, hb⟩
    unfold splitWords
    rw [List.append_assoc, List.append_assoc, List.append_assoc, wordsFrom_blank x hx,
      wordsFrom_word a ha.2, List.nil_append]
    cases y with
    | nil => exact absurd rfl hyne
    | cons c y =>
      rw [List.cons_append, wordsFrom, if_pos (hy c (by simp)), if_neg ha.1,
        wordsFrom_blank y (fun d hd => hy d (by simp [hd])), wordsFrom_word b hb.2, List.nil_append]
      congr 1
      cases z with
      | nil => rw [wordsFrom, if_neg hb.1]
      | cons c z =>
        rw [wordsFrom, if_pos (hz c (by simp)), if_neg hb.1]
        have : wordsFrom env.isSpace [] (z ++ []) = wordsFrom env.isSpace [] [] :=
          wordsFrom_blank z (fun d hd => hz d (by simp [hd])) []
        rw [List.append_nil] at this
        rw [this]
        rfl

theorem splitWords_ne_nil {s : Str} (h : ∃ c ∈ s, env.isSpace c = false) :
    splitWords env.isSpace s ≠ [] := by
  intro he
  have hs := splitWords_splits (env := env) _ s (Nat.le_refl _)
  rw [he] at hs
  generalize hl : ([] : List Str) = l at hs
  cases hs with
  | nil hb =>
    obtain ⟨c, hc, hf⟩ := h
    rw [hb c hc] at hf; cases hf
  | single => cases hl
  | cons => cases hl

/-! ### Strip -/

theorem stripStr_spec (isSpace : Char → Bool) (s : Str) :
    ∃ a b, s = a ++ stripStr isSpace s ++ b ∧ (∀ c ∈ a, isSpace c = true) ∧ (∀ c ∈ b, isSpace c = true) ∧
      (stripStr isSpace s ≠ [] → ∃ c ∈ stripStr isSpace s, isSpace c = false) := by
  unfold stripStr
  refine ⟨s.takeWhile isSpace, ((s.dropWhile isSpace).reverse.takeWhile isSpace).reverse, ?_, ?_, ?_, ?_⟩
  · rw [List.append_assoc, ← List.reverse_append, List.takeWhile_append_dropWhile, List.reverse_reverse,
      List.takeWhile_append_dropWhile]
  · intro c hc; exact (List.mem_takeWhile_imp hc)
  · intro c hc
    rw [List.mem_reverse] at hc
    exact (List.mem_takeWhile_imp hc)
  · intro hne
    generalize (s.dropWhile isSpace).reverse = r at hne ⊢
    cases hd : r.dropWhile isSpace with
    | nil => rw [hd] at hne; exact absurd rfl hne
    | cons c l =>
      refine ⟨c, by simp, ?_⟩
      have := List.head?_dropWhile_not isSpace r
      rw [hd] at this
      simpa using this

theorem stripStr_eq_nil {isSpace : Char → Bool} {s : Str} :
    stripStr isSpace s = [] ↔ s.all isSpace = true := by
  obtain ⟨a, b, hs, ha, hb, hne⟩ := stripStr_spec isSpace s
  constructor
  · intro h
    rw [h, List.append_nil] at hs
    rw [hs, List.all_eq_true]
    intro c hc
    rcases List.mem_append.1 hc with hc | hc
    · exact ha c hc
    · exact hb c hc
  · intro h
    by_contra hn
    obtain ⟨c, hc, hf⟩ := hne hn
    rw [List.all_eq_true] at h
    rw [h c (by rw [hs]; simp [hc])] at hf
    cases hf

theorem splitWords_strip (s : Str) :
    splitWords env.isSpace (stripStr env.isSpace s) = splitWords env.isSpace s := by
  obtain ⟨a, b, hs, ha, hb, _⟩ := stripStr_spec env.isSpace s
  conv => rhs; rw [hs]
  unfold splitWords
  rw [List.append_assoc, wordsFrom_blank a ha]
  generalize stripStr env.isSpace s = m
  have key : ∀ acc, wordsFrom env.isSpace acc m = wordsFrom env.isSpace acc (m ++ b) := by
    induction m with
    | nil =>
      intro acc
      rw [List.nil_append]
      cases b with
      | nil => rfl
      | cons c b =>
        have h0 : wordsFrom env.isSpace [] b = [] := by
          have := wordsFrom_blank (env := env) b (fun d hd => hb d (by simp [hd])) []
          rw [List.append_nil] at this
          rw [this]; rfl
        rw [wordsFrom, wordsFrom, if_pos (hb c (by simp)), h0]
    | cons c m ih =>
      intro acc
      rw [List.cons_append, wordsFrom, wordsFrom]
      split
      · rw [ih]
      · rw [ih]
  exact key []

/-! ### Conditions -/

theorem sizeKeys_spec (u : Str) : (sizeKeys.contains u = true ↔ (unitExponent u).isSome = true) ∧
    ∀ k, unitExponent u = some k → sizeParse u = some (1024 ^ k) := by
  have hall : ∀ u ∈ sizeKeys, (unitExponent u).isSome = true ∧
      ∀ k, unitExponent u = some k → sizeParse u = some (1024 ^ k) := by decide +kernel
  have hnone : sizeKeys.contains u = false → unitExponent u = none := by
    intro h
    have hne : ∀ v ∈ sizeKeys, u ≠ v := by
      intro v hv he
      subst he
      rw [← Bool.not_eq_true, List.contains_iff_mem] at h
      exact h hv
    have hm : ∀ l : List String, (∀ x ∈ l, x.toList ∈ sizeKeys) → u ∉ l.map String.toList := by
      intro l hl hu
      obtain ⟨x, hx, rfl⟩ := List.mem_map.1 hu
      exact hne _ (hl x hx) rfl
    unfold unitExponent
    rw [if_neg (hm _ (by decide)), if_neg (hm _ (by decide)), if_neg (hm _ (by decide)),
      if_neg (hm _ (by decide)), if_neg (hm _ (by decide)), if_neg (hm _ (by decide))]
  cases hc : sizeKeys.contains u with
  | true =>
    rw [List.contains_iff_mem] at hc
    exact ⟨by simp [(hall u hc).1], (hall u hc).2⟩
  | false =>
    rw [hnone hc]
    exact ⟨by simp, fun k hk => nomatch hk⟩

theorem ns_writable : ∀ u ∈ ([⟨'n', none⟩, ⟨'s', none⟩] : List PUnit), TokenSpec.Writable u := by
  intro u hu
  simp only [List.mem_cons, List.not_mem_nil, or_false] at hu
  rcases hu with rfl | rfl <;> exact ⟨by decide, by decide, fun _ => rfl, by simp⟩

theorem check_ns (ts : List Tok) (h : ts ≠ []) :
    ∃ b, checkRegexp ts "ns".toList = .ok b ∧
      (b = true ↔ ∃ x y, ts = [x, y] ∧ x.letter = 'n' ∧ y.letter = 's') := by
  obtain ⟨b, hb, hp⟩ := C39_patterns_match_their_language_partial _ ts ns_writable (by simp) h
  refine ⟨b, hb, hp.trans ?_⟩
  rw [Matches.cons_iff (by decide)]
  constructor
  · rintro ⟨x, l, rfl, hx, hm⟩
    obtain ⟨y, l', rfl, hy, hm⟩ := (Matches.cons_iff (by decide)).1 hm
    cases hm
    refine ⟨x, y, rfl, ?_, ?_⟩
    · rcases hx.1 with h | h
      · exact absurd h (by decide)
      · exact h.symm
    · rcases hy.1 with h | h
      · exact absurd h (by decide)
      · exact h.symm
  · rintro ⟨x, y, rfl, hx, hy⟩
    exact ⟨x, [y], rfl, ⟨.inr hx.symm, fun v hv => nomatch hv⟩,
      (Matches.cons_iff (by decide)).2 ⟨y, [], rfl, ⟨.inr hy.symm, fun v hv => nomatch hv⟩, .nil⟩⟩

/-- The possible tokens. -/
theorem tokenOf_cases (env : TextEnv) (chunk : Str) :
    ((∃ k, unitExponent chunk = some k ∧ tokenOf env chunk = ⟨⟨'s', chunk⟩, .size (1024 ^ k)⟩) ∨
     (∃ n, unitExponent chunk = none ∧ env.int chunk = some n ∧
        tokenOf env chunk = ⟨⟨'n', chunk⟩, .number n⟩) ∨
     (unitExponent chunk = none ∧ env.int chunk = none ∧
        tokenOf env chunk = ⟨⟨'d', chunk⟩, .text chunk⟩)) := by
  obtain ⟨h1, h2⟩ := sizeKeys_spec chunk
  unfold tokenOf
  cases hu : unitExponent chunk with
  | some k =>
    refine .inl ⟨k, rfl, ?_⟩
    rw [if_pos (h1.2 (by rw [hu]; rfl)), h2 k hu]
  | none =>
    rw [if_neg (fun h => by have := h1.1 h; rw [hu] at this; cases this)]
    cases hi : env.int chunk with
    | some n => exact .inr (.inl ⟨n, rfl, rfl, rfl⟩)
    | none => exact .inr (.inr ⟨rfl, rfl, rfl⟩)

/-- What an accepted condition is, for a non-blank text. -/
theorem chooseRule_spec (hunits : ∀ u, (unitExponent u).isSome = true → env.int u = none)
    (s : Str) (hne : ∃ c ∈ s, env.isSpace c = false) :
    (∀ b, chooseRule env s = .ok b ↔ Condition env s b) ∧
    (∀ e, chooseRule env s = .error e → e = .valueError) := by
  have hwne := splitWords_ne_nil hne
  have htne : (ruleTokens env s).map (·.tok) ≠ [] := by
    unfold ruleTokens; simpa using hwne
  obtain ⟨b, hb, hp⟩ := check_ns _ htne
  cases b with
  | false =>
    have hres : chooseRule env s = .error .valueError := by
      unfold chooseRule proveSource
      simp only [hb]
    rw [hres]
    refine ⟨fun bytes => ⟨fun h => (nomatch h), ?_⟩, fun e he => by cases he; rfl⟩
    rintro ⟨x, a, y, u, z, n, k, hs, hx, hy, hyne, hz, ha, hu, hn, hpos, hk, rfl⟩
    have hw := (splitWords_two (env := env) (s := s)).2 ⟨x, y, z, hs, hx, hy, hyne, hz, ha, hu⟩
    have : (ruleTokens env s).map (·.tok) = [(tokenOf env a).tok, (tokenOf env u).tok] := by
      unfold ruleTokens; rw [hw]; rfl
    rw [this] at hp
    refine absurd (hp.2 ⟨_, _, rfl, ?_, ?_⟩) (by simp)
    · rcases tokenOf_cases env a with ⟨k', h1, _⟩ | ⟨n', _, _, h3⟩ | ⟨_, h2, _⟩
      · rw [hunits a (by rw [h1]; rfl)] at hn; cases hn
      · rw [h3]
      · rw [h2] at hn; cases hn
    · rcases tokenOf_cases env u with ⟨k', _, h2⟩ | ⟨n', h1, _⟩ | ⟨h1, _⟩
      · rw [h2]
      · rw [hk] at h1; cases h1
      · rw [hk] at h1; cases h1
  | true =>
    obtain ⟨t1, t2, ht, hl1, hl2⟩ := hp.1 rfl
    have hw : ∃ a u, splitWords env.isSpace s = [a, u] := by
      unfold ruleTokens at ht
      match hws : splitWords env.isSpace s with
      | [a, u] => exact ⟨a, u, rfl⟩
      | [] => rw [hws] at ht; simp at ht
      | [a] => rw [hws] at ht; simp at ht
      | a :: b :: c :: l => rw [hws] at ht; simp at ht
    obtain ⟨a, u, hw⟩ := hw
    have htoks : ruleTokens env s = [tokenOf env a, tokenOf env u] := by
      unfold ruleTokens; rw [hw]; rfl
    rw [htoks] at ht
    simp only [List.map_cons, List.map_nil, List.cons.injEq, and_true] at ht
    obtain ⟨rfl, rfl⟩ := ht
    have h1 : ∃ n, env.int a = some n ∧ unitExponent a = none ∧ tokenOf env a = ⟨⟨'n', a⟩, .number n⟩ := by
      rcases tokenOf_cases env a with ⟨k', h1, h2⟩ | ⟨n', h1, h2, h3⟩ | ⟨h1, h2, h3⟩
      · rw [h2] at hl1; dsimp only at hl1; exact absurd hl1 (by decide)
      · exact ⟨n', h2, h1, h3⟩
      · rw [h3] at hl1; dsimp only at hl1; exact absurd hl1 (by decide)
    have h2 : ∃ k, unitExponent u = some k ∧ tokenOf env u = ⟨⟨'s', u⟩, .size (1024 ^ k)⟩ := by
      rcases tokenOf_cases env u with ⟨k', h1, h2⟩ | ⟨n', h1, h2, h3⟩ | ⟨h1, h2, h3⟩
      · exact ⟨k', h1, h2⟩
      · rw [h3] at hl2; dsimp only at hl2; exact absurd hl2 (by decide)
      · rw [h3] at hl2; dsimp only at hl2; exact absurd hl2 (by decide)
    obtain ⟨n, hn, _, e1⟩ := h1
    obtain ⟨k, hk, e2⟩ := h2
    have hres : chooseRule env s = if 0 < n then .ok (n * ((1024 ^ k : Nat) : Int)) else .error .valueError := by
      unfold chooseRule proveSource
      simp only [hb]
      rw [htoks, e1, e2]
      have f1 : firstContent 'n' [⟨⟨'n', a⟩, .number n⟩, ⟨⟨'s', u⟩, .size (1024 ^ k)⟩] = .ok (.number n) := rfl
      have f2 : firstContent 's' [⟨⟨'n', a⟩, .number n⟩, ⟨⟨'s', u⟩, .size (1024 ^ k)⟩] = .ok (.size (1024 ^ k)) := rfl
      rw [f1]
      dsimp only
      by_cases hpos : 0 < n
      · rw [decide_eq_true hpos, if_pos hpos]
        unfold sizeLimit
        rw [f1, f2]
      · rw [decide_eq_false hpos, if_neg hpos]
    rw [hres]
    have hcond : ∀ bytes, Condition env s bytes ↔ 0 < n ∧ bytes = n * 1024 ^ k := by
      intro bytes
      constructor
      · rintro ⟨x, a', y, u', z, n', k', hs, hx, hy, hyne, hz, ha, hu, hn', hpos, hk', rfl⟩
        have hw' := (splitWords_two (env := env) (s := s)).2 ⟨x, y, z, hs, hx, hy, hyne, hz, ha, hu⟩
        rw [hw] at hw'
        cases hw'
        rw [hn] at hn'; cases hn'
        rw [hk] at hk'; cases hk'
        exact ⟨hpos, rfl⟩
      · rintro ⟨hpos, rfl⟩
        obtain ⟨x, y, z, hs, hx, hy, hyne, hz, ha, hu⟩ := (splitWords_two (env := env) (s := s)).1 hw
        exact ⟨x, a, y, u, z, n, k, hs, hx, hy, hyne, hz, ha, hu, hn, hpos, hk, rfl⟩
    constructor
    · intro bytes
      rw [hcond]
      by_cases hpos : 0 < n
      · rw [if_pos hpos]
        constructor
        · intro h; cases h; exact ⟨hpos, by simp⟩
        · rintro ⟨_, rfl⟩; simp
      · rw [if_neg hpos]
        exact ⟨fun h => (nomatch h), fun h => absurd h.1 hpos⟩
    · intro e he
      split at he
      · cases he
      · cases he; rfl

end Polog
