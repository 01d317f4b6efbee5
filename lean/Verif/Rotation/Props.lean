import Verif.Rotation.Lemmas

/-! C38: which rotation strings are accepted and what they mean. C37: when the file is rotated. -/

namespace Polog
open RotationSpec

variable {env : TextEnv}

/-! ### Pieces -/

theorem RotationSpec.Pieces.exists (s : Str) : ∃ ps, Pieces s ps := by
  induction s with
  | nil => exact ⟨[[]], .last (by simp) (by simp)⟩
  | cons c s ih =>
    obtain ⟨ps, hps⟩ := ih
    by_cases hc : c = ',' ∨ c = ';'
    · exact ⟨[] :: ps, .cons (p := []) (by simp) (by simp) hc hps⟩
    · have h1 : ',' ≠ c := fun h => hc (.inl h.symm)
      have h2 : ';' ≠ c := fun h => hc (.inr h.symm)
      cases hps with
      | last ha hb => exact ⟨[c :: s], .last (by simp [ha, h1]) (by simp [hb, h2])⟩
      | @cons p s' ps' d ha hb hd hr =>
        exact ⟨(c :: p) :: ps', .cons (p := c :: p) (by simp [ha, h1]) (by simp [hb, h2]) hd hr⟩

theorem semi_id {p : Str} (h : ';' ∉ p) : p.map (fun c => if c = ';' then ',' else c) = p := by
  conv => rhs; rw [← List.map_id p]
  refine List.map_congr_left fun c hc => ?_
  rw [if_neg (fun e : c = ';' => h (e ▸ hc))]
  rfl

theorem RotationSpec.Pieces.split {s : Str} {ps : List Str} (h : Pieces s ps) :
    splitChar ',' (s.map fun c => if c = ';' then ',' else c) = ps := by
  induction h with
  | last ha hb => rw [semi_id hb, splitChar_of_not_mem _ _ ha]
  | @cons p s ps c ha hb hc hr ih =>
    have : (if c = ';' then ',' else c) = ',' := by
      rcases hc with rfl | rfl <;> rfl
    rw [List.map_append, List.map_cons, semi_id hb, this, splitChar_append _ _ _ ha, ih]

theorem splitSource_eq {s : Str} {ps : List Str} (h : Pieces s ps) :
    splitSource env s = (ps.filter fun p => !(p.all env.isSpace)).map (stripStr env.isSpace) := by
  unfold splitSource
  rw [h.split, List.filter_map]
  congr 1
  refine List.filter_congr fun p _ => ?_
  have := stripStr_eq_nil (isSpace := env.isSpace) (s := p)
  simp only [Function.comp]
  by_cases hp : stripStr env.isSpace p = []
  · simp [hp, this.1 hp]
  · cases ha : p.all env.isSpace with
    | true => exact absurd (this.2 ha) hp
    | false => simp [hp]

theorem RotationSpec.Condition.strip {s : Str} {b : Int} : Condition env (stripStr env.isSpace s) b ↔ Condition env s b := by
  have key : ∀ s, Condition env s b ↔ ∃ a u, splitWords env.isSpace s = [a, u] ∧
      ∃ n k, env.int a = some n ∧ 0 < n ∧ unitExponent u = some k ∧ b = n * 1024 ^ k := by
    intro s
    constructor
    · rintro ⟨x, a, y, u, z, n, k, hs, hx, hy, hyne, hz, ha, hu, hn, hpos, hk, rfl⟩
      exact ⟨a, u, splitWords_two.2 ⟨x, y, z, hs, hx, hy, hyne, hz, ha, hu⟩, n, k, hn, hpos, hk, rfl⟩
    · rintro ⟨a, u, hw, n, k, hn, hpos, hk, rfl⟩
      obtain ⟨x, y, z, hs, hx, hy, hyne, hz, ha, hu⟩ := splitWords_two.1 hw
      exact ⟨x, a, y, u, z, n, k, hs, hx, hy, hyne, hz, ha, hu, hn, hpos, hk, rfl⟩
  rw [key, key, splitWords_strip]

theorem extractRules_spec (hunits : ∀ u, (unitExponent u).isSome = true → env.int u = none)
    (ps : List Str) (hps : ∀ p ∈ ps, p.all env.isSpace = false) :
    (∀ limits, extractRules env (ps.map (stripStr env.isSpace)) = .ok limits ↔
      List.Forall₂ (Condition env) ps limits) ∧
    (∀ e, extractRules env (ps.map (stripStr env.isSpace)) = .error e → e = .valueError) := by
  induction ps with
  | nil =>
    refine ⟨fun limits => ?_, fun e he => by cases he⟩
    constructor
    · intro h; cases h; exact .nil
    · intro h; cases h; rfl
  | cons p ps ih =>
    obtain ⟨ih1, ih2⟩ := ih (fun q hq => hps q (by simp [hq]))
    have hp : stripStr env.isSpace p ≠ [] := by
      intro h
      have := stripStr_eq_nil.1 h
      rw [hps p (by simp)] at this
      cases this
    obtain ⟨_, _, _, _, _, hne⟩ := stripStr_spec env.isSpace p
    obtain ⟨h1, h2⟩ := chooseRule_spec hunits (stripStr env.isSpace p) (hne hp)
    rw [List.map_cons, extractRules]
    cases hc : chooseRule env (stripStr env.isSpace p) with
    | error e =>
      refine ⟨fun limits => ⟨fun h => (nomatch h), ?_⟩, fun e' he => by cases he; exact h2 e hc⟩
      intro h
      cases h with
      | cons hb _ =>
        have := (h1 _).2 (Condition.strip.2 hb)
        rw [hc] at this; cases this
    | ok b =>
      have hb := Condition.strip.1 ((h1 b).1 hc)
      cases he : extractRules env (ps.map (stripStr env.isSpace)) with
      | error e =>
        refine ⟨fun limits => ⟨fun h => (nomatch h), ?_⟩, fun e' he' => by cases he'; exact ih2 e he⟩
        intro h
        cases h with
        | cons _ hr =>
          have := (ih1 _).2 hr
          rw [he] at this; cases this
      | ok bs =>
        refine ⟨fun limits => ⟨?_, ?_⟩, fun e' he' => by cases he'⟩
        · intro h
          cases h
          exact .cons hb ((ih1 bs).1 he)
        · intro h
          cases h with
          | cons hb' hr =>
            have e1 := (h1 _).2 (Condition.strip.2 hb')
            rw [hc] at e1; cases e1
            have e2 := (ih1 _).2 hr
            rw [he] at e2; cases e2
            rfl

theorem rules_spec (hunits : ∀ u, (unitExponent u).isSome = true → env.int u = none) (s : Str) :
    (∀ limits, extractRules env (splitSource env s) = .ok limits ↔ Conditions env s limits) ∧
    (∀ e, extractRules env (splitSource env s) = .error e → e = .valueError) := by
  obtain ⟨ps, hps⟩ := Pieces.exists s
  obtain ⟨h1, h2⟩ := extractRules_spec hunits (ps.filter fun p => !(p.all env.isSpace)) (by
    intro p hp
    simpa using (List.mem_filter.1 hp).2)
  rw [splitSource_eq hps]
  refine ⟨fun limits => (h1 limits).trans ⟨fun h => ⟨ps, hps, h⟩, ?_⟩, h2⟩
  rintro ⟨ps', hps', h⟩
  have : ps' = ps := by rw [← hps.split, ← hps'.split]
  rw [← this]; exact h

/-! ### Arrows -/

theorem RotationSpec.HasArrows.cons {s : Str} (c : Char) (h : HasArrows s) : HasArrows (c :: s) := by
  obtain ⟨a, b, rfl⟩ := h
  exact ⟨c :: a, b, rfl⟩

theorem splitArrows_spec (n : Nat) : ∀ (s : Str), s.length ≤ n → ∀ acc,
    (¬ HasArrows s ∧ splitArrows acc s = [acc ++ s]) ∨
    (∃ a b, s = a ++ '>' :: '>' :: b ∧ ¬ HasArrows (a ++ ['>']) ∧
      splitArrows acc s = (acc ++ a) :: splitArrows [] b) := by
  induction n with
  | zero =>
    intro s hs acc
    have : s = [] := List.length_eq_zero_iff.1 (by omega)
    subst this
    refine .inl ⟨?_, by simp [splitArrows]⟩
    rintro ⟨a, b, h⟩
    simp at h
  | succ n ih =>
    intro s hs acc
    match s with
    | [] =>
      refine .inl ⟨?_, by simp [splitArrows]⟩
      rintro ⟨a, b, h⟩
      simp at h
    | [c] =>
      refine .inl ⟨?_, by simp [splitArrows]⟩
      rintro ⟨a, b, h⟩
      have := congrArg List.length h
      simp at this
      omega
    | c :: d :: cs =>
      by_cases hcd : c = '>' ∧ d = '>'
      · obtain ⟨rfl, rfl⟩ := hcd
        refine .inr ⟨[], cs, rfl, ?_, by simp [splitArrows]⟩
        rintro ⟨a, b, h⟩
        have := congrArg List.length h
        simp at this
        omega
      · have hstep : splitArrows acc (c :: d :: cs) = splitArrows (acc ++ [c]) (d :: cs) := by
          rw [splitArrows, if_neg hcd]
        rw [hstep]
        rcases ih (d :: cs) (by simp at hs ⊢; omega) (acc ++ [c]) with ⟨h1, h2⟩ | ⟨a, b, h1, h2, h3⟩
        · refine .inl ⟨?_, by rw [h2]; simp⟩
          rintro ⟨a, b, h⟩
          cases a with
          | nil =>
            simp only [List.nil_append, List.cons.injEq] at h
            exact hcd ⟨h.1, h.2.1⟩
          | cons x a =>
            simp only [List.cons_append, List.cons.injEq] at h
            exact h1 ⟨a, b, h.2⟩
        · refine .inr ⟨c :: a, b, by rw [h1]; rfl, ?_, by rw [h3]; simp⟩
          rintro ⟨x, y, h⟩
          cases x with
          | nil =>
            simp only [List.nil_append, List.cons_append, List.cons.injEq] at h
            obtain ⟨rfl, h⟩ := h
            refine hcd ⟨rfl, ?_⟩
            cases a with
            | nil => simp only [List.nil_append, List.cons.injEq] at h1; exact h1.1
            | cons e a =>
              simp only [List.cons_append, List.cons.injEq] at h h1
              exact h1.1.trans h.1
          | cons e x =>
            simp only [List.cons_append, List.cons.injEq] at h
            exact h2 ⟨x, y, h.2⟩

/-- The first arrows are at one place. -/
theorem first_arrows {a a' b b' : Str} (h : a ++ '>' :: '>' :: b = a' ++ '>' :: '>' :: b')
    (ha : ¬ HasArrows (a ++ ['>'])) (ha' : ¬ HasArrows (a' ++ ['>'])) : a = a' ∧ b = b' := by
  have key : ∀ (a a' b b' : Str), a ++ '>' :: '>' :: b = a' ++ '>' :: '>' :: b' →
      ¬ HasArrows (a' ++ ['>']) → ¬ a.length < a'.length := by
    intro a
    induction a with
    | nil =>
      intro a' b b' h ha' hlt
      match a' with
      | [] => simp at hlt
      | [x] =>
        simp only [List.nil_append, List.cons_append, List.cons.injEq] at h
        obtain ⟨rfl, _⟩ := h
        exact ha' ⟨[], [], rfl⟩
      | x :: y :: a' =>
        simp only [List.nil_append, List.cons_append, List.cons.injEq] at h
        obtain ⟨rfl, rfl, _⟩ := h
        exact ha' ⟨[], a' ++ ['>'], rfl⟩
    | cons c a ih =>
      intro a' b b' h ha' hlt
      cases a' with
      | nil => simp at hlt
      | cons x a' =>
        simp only [List.cons_append, List.cons.injEq] at h
        exact ih a' b b' h.2 (fun hh => ha' (HasArrows.cons x hh)) (by simpa using hlt)
  have hl : a.length = a'.length := by
    have h1 := key a a' b b' h ha'
    have h2 := key a' a b' b h.symm ha
    omega
  have := List.append_inj h hl
  simp only [List.cons.injEq, true_and] at this
  exact this

/-- The three shapes of a rotation string. -/
theorem splitArrows_cases (s : Str) :
    (¬ HasArrows s ∧ splitArrows [] s = [s]) ∨
    (∃ a b, Arrow s a b ∧ splitArrows [] s = [a, b]) ∨
    (HasArrows s ∧ (∀ a b, ¬ Arrow s a b) ∧ ∃ a b c l, splitArrows [] s = a :: b :: c :: l) := by
  rcases splitArrows_spec _ s (Nat.le_refl _) [] with ⟨h1, h2⟩ | ⟨a, b, h1, h2, h3⟩
  · exact .inl ⟨h1, by simpa using h2⟩
  · rw [List.nil_append] at h3
    rcases splitArrows_spec _ b (Nat.le_refl _) [] with ⟨g1, g2⟩ | ⟨a', b', g1, g2, g3⟩
    · exact .inr (.inl ⟨a, b, ⟨h1, h2, g1⟩, by rw [h3, g2]; rfl⟩)
    · refine .inr (.inr ⟨⟨a, b, h1⟩, ?_, ?_⟩)
      · rintro x y ⟨e1, e2, e3⟩
        obtain ⟨rfl, rfl⟩ := first_arrows (h1.symm.trans e1) h2 e2
        exact e3 ⟨a', b', g1⟩
      · rw [h3, g3]
        rcases splitArrows_spec _ b' (Nat.le_refl _) [] with ⟨_, k2⟩ | ⟨a'', b'', _, _, k3⟩
        · rw [k2]; exact ⟨_, _, _, _, rfl⟩
        · rw [k3]; exact ⟨_, _, _, _, rfl⟩

theorem RotationSpec.Conditions.nil_iff {limits : List Int} : Conditions env [] limits ↔ limits = [] := by
  have hp : Pieces [] [[]] := .last (by simp) (by simp)
  constructor
  · rintro ⟨ps, hps, h⟩
    have : ps = [[]] := by rw [← hp.split, ← hps.split]
    subst this
    have : List.Forall₂ (Condition env) [] limits := h
    cases this; rfl
  · rintro rfl
    exact ⟨[[]], hp, .nil⟩

/-- **C38**: a rotation string for a handler with a file is accepted iff it is a list of conditions
separated by `,` or `;` (each one positive number and one unit; blank pieces do not matter), possibly
followed by one `>>` and a directory; the limits are the numbers of bytes of the conditions, and the
directory is the text after the arrows without surrounding white space, or `logs` if there is none.
`hunits`: names of units are not numbers for `int`. -/
theorem C38_accepted_rotation_strings (hunits : ∀ u, (unitExponent u).isSome = true → env.int u = none)
    (s : Str) (limits : List Int) (dir : Str) :
    rotatorInit env true (some s) = .ok ⟨limits, dir⟩ ↔
      (¬ HasArrows s ∧ Conditions env s limits ∧ dir = "logs".toList) ∨
      (∃ a b, Arrow s a b ∧ Conditions env a limits ∧
        dir = if b = [] then "logs".toList else stripStr env.isSpace b) := by
  unfold rotatorInit rulesString whereToRotate
  dsimp only
  rw [if_neg (by simp)]
  rcases splitArrows_cases s with ⟨h1, h2⟩ | ⟨a, b, h1, h2⟩ | ⟨h1, h2, a, b, c, l, h3⟩
  · rw [h2]
    dsimp only
    have hr := (rules_spec hunits s).1 limits
    constructor
    · intro h
      cases he : extractRules env (splitSource env s) with
      | error e => rw [he] at h; cases h
      | ok r =>
        rw [he] at h hr
        cases h
        exact .inl ⟨h1, hr.1 rfl, rfl⟩
    · rintro (⟨_, hc, rfl⟩ | ⟨a, b, hab, _⟩)
      · rw [hr.2 hc]
      · exact absurd ⟨a, b, hab.1⟩ h1
  · rw [h2]
    dsimp only
    have hr := (rules_spec hunits a).1 limits
    have huniq : ∀ a' b', Arrow s a' b' → a' = a ∧ b' = b := fun a' b' h' =>
      first_arrows (h'.1.symm.trans h1.1) h'.2.1 h1.2.1
    have hdir : (if b = [] then (Except.ok "logs".toList : Except PyErr Str)
        else Except.ok (stripStr env.isSpace b)) =
        .ok (if b = [] then "logs".toList else stripStr env.isSpace b) := by split <;> rfl
    rw [hdir]
    have goal : ((∃ a' b', Arrow s a' b' ∧ Conditions env a' limits ∧
        dir = if b' = [] then "logs".toList else stripStr env.isSpace b') ↔
        Conditions env a limits ∧ dir = if b = [] then "logs".toList else stripStr env.isSpace b) := by
      constructor
      · rintro ⟨a', b', h', hc, hd⟩
        obtain ⟨rfl, rfl⟩ := huniq a' b' h'
        exact ⟨hc, hd⟩
      · rintro ⟨hc, hd⟩; exact ⟨a, b, h1, hc, hd⟩
    rw [goal]
    have hno : ¬ (¬ HasArrows s ∧ Conditions env s limits ∧ dir = "logs".toList) :=
      fun h => h.1 ⟨a, b, h1.1⟩
    by_cases ha : a = []
    · subst ha
      rw [if_pos rfl]
      dsimp only
      rw [Conditions.nil_iff]
      constructor
      · intro h; cases h; exact .inr ⟨rfl, rfl⟩
      · rintro (h | ⟨rfl, rfl⟩)
        · exact absurd h hno
        · rfl
    · rw [if_neg ha]
      dsimp only
      constructor
      · intro h
        cases he : extractRules env (splitSource env a) with
        | error e => rw [he] at h; cases h
        | ok r =>
          rw [he] at h hr
          cases h
          exact .inr ⟨hr.1 rfl, rfl⟩
      · rintro (h | ⟨hc, rfl⟩)
        · exact absurd h hno
        · rw [hr.2 hc]
  · rw [h3]
    dsimp only
    constructor
    · intro h; cases h
    · rintro (⟨h, _⟩ | ⟨a', b', h, _⟩)
      · exact absurd h1 h
      · exact absurd h (h2 a' b')

/-- **C38**: everything else raises `ValueError` when the handler is created; a handler without a file
accepts no non-empty rotation string at all. -/
theorem C38_other_strings_raise_value_error
    (hunits : ∀ u, (unitExponent u).isSome = true → env.int u = none) (s : Str) :
    (∀ e, rotatorInit env true (some s) = .error e → e = .valueError) ∧
    (s ≠ [] → rotatorInit env false (some s) = .error .valueError) ∧
    (∀ f, rotatorInit env f none = .ok ⟨[], "logs".toList⟩) := by
  refine ⟨?_, ?_, fun f => rfl⟩
  · intro e he
    unfold rotatorInit rulesString whereToRotate at he
    dsimp only at he
    rw [if_neg (by simp)] at he
    rcases splitArrows_cases s with ⟨h1, h2⟩ | ⟨a, b, h1, h2⟩ | ⟨h1, h2, a, b, c, l, h3⟩
    · rw [h2] at he
      dsimp only at he
      cases hr : extractRules env (splitSource env s) with
      | ok r => rw [hr] at he; cases he
      | error e' => rw [hr] at he; cases he; exact (rules_spec hunits s).2 _ hr
    · rw [h2] at he
      dsimp only at he
      by_cases ha : a = []
      · rw [if_pos ha] at he
        by_cases hb : b = []
        · rw [if_pos hb] at he; cases he
        · rw [if_neg hb] at he; cases he
      · rw [if_neg ha] at he
        have hd : ∃ d : Str, (if b = [] then (Except.ok "logs".toList : Except PyErr Str)
          else Except.ok (stripStr env.isSpace b)) = .ok d := by split <;> exact ⟨_, rfl⟩
        obtain ⟨d, hd⟩ := hd
        rw [hd] at he
        dsimp only at he
        cases hr : extractRules env (splitSource env a) with
        | ok r => rw [hr] at he; cases he
        | error e' => rw [hr] at he; cases he; exact (rules_spec hunits a).2 _ hr
    · rw [h3] at he
      cases he; rfl
  · intro hs
    unfold rotatorInit
    dsimp only
    rw [if_pos ⟨hs, rfl⟩]

/-- Decimal digits, for the examples. -/
def exInt (s : Str) : Option Int :=
  if s ≠ [] ∧ s.all Char.isDigit then some (s.foldl (fun n c => 10 * n + (c.toNat - 48 : Nat)) 0) else none

def exText : TextEnv := ⟨fun c => c == ' ', exInt⟩

-- the hypothesis is met, and a string of the documentation is accepted
example : (∀ u, (unitExponent u).isSome = true → exText.int u = none) ∧
    rotatorInit exText true (some "200 megabytes; 1 kb >> archive_logs ".toList) =
      .ok ⟨[209715200, 1024], "archive_logs".toList⟩ := by
  refine ⟨?_, by decide +kernel⟩
  intro u hu
  have := (sizeKeys_spec u).1.2 hu
  rw [List.contains_iff_mem] at this
  have all : ∀ u ∈ sizeKeys, exText.int u = none := by decide +kernel
  exact all u this

example : rotatorInit exText true (some "0 mb".toList) = .error .valueError ∧
    rotatorInit exText true (some "5 mb kb".toList) = .error .valueError ∧
    rotatorInit exText true (some "5mb".toList) = .error .valueError ∧
    rotatorInit exText true (some "5 mb >> a >> b".toList) = .error .valueError := by decide +kernel

/-- **C37**: with an accepted rotation string, a file of the given size is to be rotated iff its size is
at least the limit of some condition of the string; without rotation it never is. -/
theorem C37_rotation_is_due_iff_some_limit_is_reached
    (hunits : ∀ u, (unitExponent u).isSome = true → env.int u = none)
    (s : Str) (conf : RotConf) (hconf : rotatorInit env true (some s) = .ok conf) (size : Nat) :
    conf.fires size = true ↔
      ∃ rules ps, ((¬ HasArrows s ∧ rules = s) ∨ ∃ dir, Arrow s rules dir) ∧ Pieces rules ps ∧
        ∃ p ∈ ps, ∃ limit, Condition env p limit ∧ limit ≤ (size : Int) := by
  obtain ⟨limits, dir⟩ := conf
  have hno : ∀ s' : Str, ¬ HasArrows s' → ∀ a b, ¬ Arrow s' a b := fun s' h a b hab => h ⟨a, b, hab.1⟩
  have hmem : ∀ (ps : List Str) (ls : List Int), List.Forall₂ (Condition env) ps ls →
      ∀ size : Int, (∃ l ∈ ls, l ≤ size) ↔ ∃ p ∈ ps, ∃ l, Condition env p l ∧ l ≤ size := by
    intro ps ls h size
    induction h with
    | nil => simp
    | @cons p l ps ls hpl _ ih =>
      have hun : ∀ l', Condition env p l' → l' = l := by
        intro l' hl'
        have hne : ∃ c ∈ p, env.isSpace c = false := by
          obtain ⟨x, a, y, u, z, n, k, rfl, hx, hy, hyne, hz, ha, hu, _⟩ := hpl
          obtain ⟨hane, ha⟩ := ha
          cases a with
          | nil => exact absurd rfl hane
          | cons c a => exact ⟨c, by simp, ha c (by simp)⟩
        have e1 := ((chooseRule_spec hunits p hne).1 l).2 hpl
        have e2 := ((chooseRule_spec hunits p hne).1 l').2 hl'
        rw [e1] at e2; cases e2; rfl
      simp only [List.mem_cons, exists_eq_or_imp, ih]
      constructor
      · rintro (h | h)
        · exact .inl ⟨l, hpl, h⟩
        · exact .inr h
      · rintro (⟨l', h1, h2⟩ | h)
        · exact .inl (hun l' h1 ▸ h2)
        · exact .inr h
  have hfil : ∀ (ps : List Str) (size : Int),
      (∃ p ∈ ps.filter (fun p => !(p.all env.isSpace)), ∃ l, Condition env p l ∧ l ≤ size) ↔
      ∃ p ∈ ps, ∃ l, Condition env p l ∧ l ≤ size := by
    intro ps size
    constructor
    · rintro ⟨p, hp, h⟩; exact ⟨p, (List.mem_filter.1 hp).1, h⟩
    · rintro ⟨p, hp, l, hl, h⟩
      refine ⟨p, List.mem_filter.2 ⟨hp, ?_⟩, l, hl, h⟩
      obtain ⟨x, a, y, u, z, n, k, rfl, hx, hy, hyne, hz, ha, hu, _⟩ := hl
      obtain ⟨hane, ha⟩ := ha
      cases a with
      | nil => exact absurd rfl hane
      | cons c a =>
        have hc : env.isSpace c = false := ha c (by simp)
        simp [hc]
  have hcond : ∀ r ps, Pieces r ps → Conditions env r limits →
      ((∃ l ∈ limits, l ≤ (size : Int)) ↔ ∃ p ∈ ps, ∃ l, Condition env p l ∧ l ≤ (size : Int)) := by
    rintro r ps hps ⟨ps', hps', hF⟩
    have : ps' = ps := by rw [← hps.split, ← hps'.split]
    subst this
    rw [hmem _ _ hF, hfil]
  have hfires : (RotConf.mk limits dir).fires size = true ↔ ∃ l ∈ limits, l ≤ (size : Int) := by
    simp [RotConf.fires]
  rw [hfires]
  rcases (C38_accepted_rotation_strings hunits s limits dir).1 hconf with ⟨h1, h2, _⟩ | ⟨a, b, h1, h2, _⟩
  · constructor
    · intro h
      obtain ⟨ps, hps⟩ := Pieces.exists s
      exact ⟨s, ps, .inl ⟨h1, rfl⟩, hps, (hcond s ps hps h2).1 h⟩
    · rintro ⟨r, ps, ⟨_, rfl⟩ | ⟨d, hd⟩, hps, h⟩
      · exact (hcond _ ps hps h2).2 h
      · exact absurd hd (hno s h1 _ _)
  · constructor
    · intro h
      obtain ⟨ps, hps⟩ := Pieces.exists a
      exact ⟨a, ps, .inr ⟨b, h1⟩, hps, (hcond a ps hps h2).1 h⟩
    · rintro ⟨r, ps, hr, hps, h⟩
      rcases hr with ⟨hn, _⟩ | ⟨d, hd⟩
      · exact absurd ⟨a, b, h1.1⟩ hn
      · obtain ⟨rfl, rfl⟩ := first_arrows (hd.1.symm.trans h1.1) hd.2.1 h1.2.1
        exact (hcond _ ps hps h2).2 h

example : -- 1024 bytes are enough for `200 megabytes; 1 kb >> archive_logs `, 1023 are not
    ∃ conf, rotatorInit exText true (some "200 megabytes; 1 kb >> archive_logs ".toList) = .ok conf ∧
      conf.fires 1024 = true ∧ conf.fires 1023 = false :=
  ⟨⟨[209715200, 1024], "archive_logs".toList⟩, by decide +kernel, by decide +kernel, by decide +kernel⟩

end Polog
