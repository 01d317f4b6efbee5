import Verif.Tokens.Props
import Verif.Dict

/-! C85: classes of tokens and the letters that stand for them in patterns. Model of
`polog/handlers/file/rotation/rules/rules/tokenization/tokens/abstractions/meta_token.py` and of
`TokensGroup.__getitem__`, tokens_group.py:10-34. -/

namespace Polog

/-- What looking up `regexp_letter` on a new class gives, inherited attributes included (meta_token.py:35,38). -/
inductive LetterAttr where
  | missing
  | none
  | str (s : Str)
  | other
deriving DecidableEq

/-- The definition of a class of tokens. What meta_token.py:19-44 gets. -/
structure TokenClassDef where
  name : Str
  letter : LetterAttr
deriving DecidableEq

/-- `MetaToken.forbidden_regexp_letters`, meta_token.py:8-12. -/
def forbiddenLetters : List Str := ["*".toList, "[".toList, "]".toList]

/-- `MetaToken.__new__`, meta_token.py:19-44; `letters` is `all_regexp_letters`. The answer is the exception, if any. -/
def newTokenClass (letters : Dict Str Str) (d : TokenClassDef) : Dict Str Str × Option PyErr :=
  if d.name = "AbstractToken".toList then
    match d.letter with
    | .missing => (letters, none)
    | .none => (letters, none)
    | _ => (letters, some .attributeError)
  else
    match d.letter with
    | .str s =>
      if s.length ≠ 1 ∨ s ∈ forbiddenLetters then (letters, some .attributeError)
      else if Dict.has s letters then (letters, some .attributeError)
      else (Dict.set s d.name letters, none)
    | _ => (letters, some .attributeError)

/-- A program defines classes one after another; those that come into being, with their letters.
meta_token.py:19-44 for each. -/
def defineClasses : Dict Str Str → List TokenClassDef → Dict Str Str × List TokenClassDef
  | letters, [] => (letters, [])
  | letters, d :: ds =>
    let r := newTokenClass letters d
    let q := defineClasses r.1 ds
    (q.1, (if r.2.isNone then [d] else []) ++ q.2)

/-- What may stand in `group[key]`. tokens_group.py:10-34. -/
inductive TokKey where
  | int (n : Int)
  | str (s : Str)
  | other

/-- What `group[key]` gives: a token or a group. tokens_group.py:10-34. -/
inductive TokAnswer where
  | token (t : Tok)
  | group (ts : List Tok)

/-- `self.tokens[key]` for a number: from the end if it is negative. tokens_group.py:10-34. -/
def tokIndex (ts : List Tok) (n : Int) : Except PyErr TokAnswer :=
  let i := if n < 0 then n + ts.length else n
  if i < 0 then .error .indexError
  else
    match ts[i.toNat]? with
    | some t => .ok (.token t)
    | none => .error .indexError

/-- The loop of tokens_group.py:26-29. -/
def firstNotDot : List Tok → List Tok
  | [] => []
  | t :: ts => if t.letter ≠ '.' then [t] else firstNotDot ts

/-- `TokensGroup.__getitem__`, tokens_group.py:10-34. -/
def groupGet (ts : List Tok) : TokKey → Except PyErr TokAnswer
  | .int n => tokIndex ts n
  | .str s =>
    if s = ".".toList then .ok (.group (firstNotDot ts))
    else if s = "*".toList then .ok (.group ts)
    else
      match s with
      | [c] => .ok (.group (ts.filter fun t => t.letter == c))
      | _ => .error .keyError
  | .other => .error .keyError

namespace TokenSpec

/-- A class other than the abstract one. meta_token.py:19-44. -/
def Concrete (d : TokenClassDef) : Prop := d.name ≠ "AbstractToken".toList

/-- A letter that may be given to a class: one character without a meaning of its own in patterns.
For statements; compare meta_token.py:19-44. -/
def GoodLetter (a : LetterAttr) : Prop := ∃ c : Char, a = .str [c] ∧ c ≠ '*' ∧ c ≠ '[' ∧ c ≠ ']'

end TokenSpec

open TokenSpec

/-! ### Letters -/

theorem forbidden_iff (c : Char) : [c] ∈ forbiddenLetters ↔ c = '*' ∨ c = '[' ∨ c = ']' := by
  simp [forbiddenLetters]

theorem newTokenClass_concrete (letters : Dict Str Str) (d : TokenClassDef) (hd : Concrete d) :
    ((∃ c, d.letter = .str [c] ∧ [c] ∉ forbiddenLetters ∧ [c] ∉ Dict.keys letters ∧
      newTokenClass letters d = (Dict.set [c] d.name letters, none)) ∨
    ((¬ GoodLetter d.letter ∨ ∃ s, d.letter = .str s ∧ s ∈ Dict.keys letters) ∧
      newTokenClass letters d = (letters, some .attributeError))) := by
  unfold newTokenClass
  rw [if_neg hd]
  cases hl : d.letter with
  | missing => exact .inr ⟨.inl (fun ⟨c, h, _⟩ => nomatch h), rfl⟩
  | none => exact .inr ⟨.inl (fun ⟨c, h, _⟩ => nomatch h), rfl⟩
  | other => exact .inr ⟨.inl (fun ⟨c, h, _⟩ => nomatch h), rfl⟩
  | str s =>
    dsimp only
    by_cases h1 : s.length ≠ 1 ∨ s ∈ forbiddenLetters
    · rw [if_pos h1]
      refine .inr ⟨.inl ?_, rfl⟩
      rintro ⟨c, h, h2, h3, h4⟩
      cases h
      rcases h1 with h1 | h1
      · exact h1 rfl
      · rcases (forbidden_iff c).1 h1 with h | h | h
        · exact h2 h
        · exact h3 h
        · exact h4 h
    · rw [if_neg h1]
      rw [not_or] at h1
      by_cases h2 : Dict.has s letters = true
      · rw [if_pos h2]
        exact .inr ⟨.inr ⟨s, rfl, (Dict.get?_isSome_iff s letters).1 h2⟩, rfl⟩
      · rw [if_neg h2]
        obtain ⟨c, rfl⟩ := List.length_eq_one_iff.1 (Classical.not_not.1 h1.1)
        exact .inl ⟨c, rfl, h1.2, fun h => h2 ((Dict.get?_isSome_iff _ letters).2 h), rfl⟩

/-- What is known after some classes were defined. -/
theorem defineClasses_inv : ∀ (ds : List TokenClassDef) (letters : Dict Str Str),
    (∀ s, s ∈ Dict.keys (defineClasses letters ds).1 ↔ s ∈ Dict.keys letters ∨
      ∃ d ∈ (defineClasses letters ds).2, Concrete d ∧ d.letter = .str s) ∧
    (∀ d ∈ (defineClasses letters ds).2, Concrete d → GoodLetter d.letter ∧ ∀ s ∈ Dict.keys letters, d.letter ≠ .str s) ∧
    (defineClasses letters ds).2.Pairwise fun a b => Concrete a → Concrete b → a.letter ≠ b.letter := by
  intro ds
  induction ds with
  | nil => intro letters; exact ⟨by simp [defineClasses], by simp [defineClasses], .nil⟩
  | cons d ds ih =>
    intro letters
    simp only [defineClasses]
    by_cases hd : Concrete d
    · rcases newTokenClass_concrete letters d hd with ⟨c, h1, h2, h3, h4⟩ | ⟨_, h4⟩
      · rw [h4]
        obtain ⟨i1, i2, i3⟩ := ih (Dict.set [c] d.name letters)
        have hk : ∀ s, s ∈ Dict.keys (Dict.set [c] d.name letters) ↔ s ∈ Dict.keys letters ∨ s = [c] := by
          intro s
          rw [Dict.keys_set, if_neg h3, List.mem_append, List.mem_singleton]
        have hgood : GoodLetter d.letter := by
          rw [forbidden_iff, not_or, not_or] at h2
          exact ⟨c, h1, h2.1, h2.2.1, h2.2.2⟩
        refine ⟨fun s => ?_, fun x hx hxc => ?_, ?_⟩
        · rw [i1, hk]
          constructor
          · rintro ((h | rfl) | ⟨x, hx, h⟩)
            · exact .inl h
            · exact .inr ⟨d, by simp, hd, h1⟩
            · exact .inr ⟨x, by simp [hx], h⟩
          · rintro (h | ⟨x, hx, hxc, h⟩)
            · exact .inl (.inl h)
            · rcases List.mem_append.1 hx with hx | hx
              · simp only [Option.isNone_none, if_true, List.mem_singleton] at hx
                subst hx
                rw [h1] at h
                cases h
                exact .inl (.inr rfl)
              · exact .inr ⟨x, hx, hxc, h⟩
        · rcases List.mem_append.1 hx with hx | hx
          · simp only [Option.isNone_none, if_true, List.mem_singleton] at hx
            subst hx
            refine ⟨hgood, fun s hs h => ?_⟩
            rw [h1] at h
            cases h
            exact h3 hs
          · exact ⟨(i2 x hx hxc).1, fun s hs => (i2 x hx hxc).2 s ((hk s).2 (.inl hs))⟩
        · simp only [Option.isNone_none, if_true, List.singleton_append, List.pairwise_cons]
          refine ⟨fun x hx _ hxc h => ?_, i3⟩
          exact (i2 x hx hxc).2 [c] ((hk _).2 (.inr rfl)) (by rw [← h, h1])
      · rw [h4]
        exact ih letters
    · have hn : d.name = "AbstractToken".toList := Classical.not_not.1 hd
      have h4 : (newTokenClass letters d).1 = letters := by
        unfold newTokenClass
        rw [if_pos hn]
        cases d.letter <;> rfl
      obtain ⟨i1, i2, i3⟩ := ih letters
      rw [h4]
      refine ⟨fun s => ?_, fun x hx hxc => ?_, ?_⟩
      · rw [i1]
        refine or_congr Iff.rfl ⟨fun ⟨x, hx, h⟩ => ⟨x, List.mem_append_right _ hx, h⟩, fun ⟨x, hx, hxc, h⟩ => ?_⟩
        rcases List.mem_append.1 hx with hx | hx
        · split at hx
          · rw [List.mem_singleton] at hx; subst hx; exact absurd hxc hd
          · cases hx
        · exact ⟨x, hx, hxc, h⟩
      · rcases List.mem_append.1 hx with hx | hx
        · split at hx
          · rw [List.mem_singleton] at hx; subst hx; exact absurd hxc hd
          · cases hx
        · exact i2 x hx hxc
      · split
        · rw [List.singleton_append, List.pairwise_cons]
          exact ⟨fun x _ h => absurd h hd, i3⟩
        · exact i3

/-- **C85**: whatever classes of tokens a program defines, in whatever order and however many of them are refused, no two of the
classes that came into being have the same letter, and every letter is one character that is not `*`, `[` or `]`. -/
theorem C85_letters_are_unique (ds : List TokenClassDef) :
    (defineClasses [] ds).2.Pairwise (fun a b => Concrete a → Concrete b → a.letter ≠ b.letter) ∧
    ∀ d ∈ (defineClasses [] ds).2, Concrete d → GoodLetter d.letter :=
  ⟨(defineClasses_inv ds []).2.2, fun d hd hc => ((defineClasses_inv ds []).2.1 d hd hc).1⟩

/-- **C85**: and a class is refused (with `AttributeError`) exactly if its letter is not good or belongs to a class that came into being
before. -/
theorem C85_refused_exactly (ds : List TokenClassDef) (d : TokenClassDef) (hd : Concrete d) :
    ((newTokenClass (defineClasses [] ds).1 d).2 = some .attributeError ↔
      ¬ GoodLetter d.letter ∨ ∃ x ∈ (defineClasses [] ds).2, Concrete x ∧ x.letter = d.letter) ∧
    ((newTokenClass (defineClasses [] ds).1 d).2 ≠ some .attributeError → (newTokenClass (defineClasses [] ds).1 d).2 = none) := by
  obtain ⟨i1, i2, i3⟩ := defineClasses_inv ds []
  have hkeys : ∀ s, s ∈ Dict.keys (defineClasses [] ds).1 ↔ ∃ x ∈ (defineClasses [] ds).2, Concrete x ∧ x.letter = .str s := by
    intro s
    rw [i1]
    simp [Dict.keys]
  rcases newTokenClass_concrete (defineClasses [] ds).1 d hd with ⟨c, h1, h2, h3, h4⟩ | ⟨h, h4⟩
  · rw [h4]
    refine ⟨⟨(fun h => nomatch h), ?_⟩, fun _ => rfl⟩
    rintro (h | ⟨x, hx, hxc, h⟩)
    · rw [forbidden_iff, not_or, not_or] at h2
      exact absurd ⟨c, h1, h2.1, h2.2.1, h2.2.2⟩ h
    · exact absurd ((hkeys [c]).2 ⟨x, hx, hxc, h.trans h1⟩) h3
  · rw [h4]
    refine ⟨⟨fun _ => ?_, fun _ => rfl⟩, fun h => absurd rfl h⟩
    rcases h with h | ⟨s, hs, hk⟩
    · exact .inl h
    · obtain ⟨x, hx, hxc, h⟩ := (hkeys s).1 hk
      exact .inr ⟨x, hx, hxc, h.trans hs.symm⟩

/-- **C85**: so a letter in a pattern stands for one class only: if a token of a class fits the letter of another one, they are the same
class.

Partial: for letters other than `.`. -/
theorem C85_letter_stands_for_one_class_partial (ds : List TokenClassDef) (i j : Nat) (a b : TokenClassDef)
    (ha : (defineClasses [] ds).2[i]? = some a) (hb : (defineClasses [] ds).2[j]? = some b) (hca : Concrete a) (hcb : Concrete b)
    (c c' : Char) (hac : a.letter = .str [c]) (hbc : b.letter = .str [c']) (hdot : c ≠ '.')
    (source : Str) (h : Matches [⟨c, none⟩] [⟨c', source⟩]) : i = j := by
  have hcc : c = c' := by
    have hstar : c ≠ '*' := by
      obtain ⟨x, hx, h1, _⟩ := (C85_letters_are_unique ds).2 a (List.mem_of_getElem? ha) hca
      rw [hac] at hx
      cases hx
      exact h1
    generalize hts : [(⟨c', source⟩ : Tok)] = ts at h
    cases h with
    | star hs => exact absurd hs hstar
    | one _ hf _ =>
      cases hts
      rcases hf.1 with h | h
      · exact absurd h hdot
      · exact h
  have hp := (C85_letters_are_unique ds).1
  rw [List.pairwise_iff_getElem] at hp
  obtain ⟨hi, ha'⟩ := List.getElem?_eq_some_iff.1 ha
  obtain ⟨hj, hb'⟩ := List.getElem?_eq_some_iff.1 hb
  rcases Nat.lt_trichotomy i j with hlt | he | hlt
  · exact absurd (by rw [ha', hb', hac, hbc, hcc]) (hp i j hi hj hlt (by rwa [ha']) (by rwa [hb']))
  · exact he
  · exact absurd (by rw [ha', hb', hac, hbc, hcc]) (hp j i hj hi hlt (by rwa [hb']) (by rwa [ha']))

/-- **C85 fails** for `.`: a class with this letter is accepted (although the message of the error says that it may not be), and as `.` in
a pattern stands for every token, the pattern of this class also matches tokens of another one; and `group['.']` leaves out exactly the
tokens of this class. -/
theorem C85_dot_fails : ∃ (ds : List TokenClassDef) (a b : TokenClassDef), (defineClasses [] ds).2 = [a, b] ∧ Concrete a ∧ Concrete b ∧
    a.letter = .str ['.'] ∧ b.letter = .str ['n'] ∧ checkRegexp [⟨'n', "5".toList⟩] ".".toList = .ok true ∧
    groupGet [⟨'.', "x".toList⟩] (.str ".".toList) = .ok (.group []) :=
  ⟨[⟨"Dot".toList, .str ['.']⟩, ⟨"Number".toList, .str ['n']⟩], _, _, rfl, by unfold Concrete; decide, by unfold Concrete; decide,
    rfl, rfl, rfl, rfl⟩

/-- The classes of the library, and one more with a letter that is taken. -/
example : (defineClasses [] [⟨"AbstractToken".toList, .none⟩, ⟨"SizeToken".toList, .str ['s']⟩, ⟨"NumberToken".toList, .str ['n']⟩,
    ⟨"DotToken".toList, .str ['d']⟩, ⟨"Mine".toList, .str ['n']⟩, ⟨"Star".toList, .str ['*']⟩, ⟨"Long".toList, .str ['a', 'b']⟩]).2.map
    TokenClassDef.name = ["AbstractToken".toList, "SizeToken".toList, "NumberToken".toList, "DotToken".toList] := by decide

/-! ### Groups -/

/-- **C85**, `group[key]`: a letter gives the tokens of its class, in order; `*` gives all; a number gives the token at this place,
negative ones counted from the end; what is neither a number nor a string of one character raises `KeyError`. -/
theorem C85_parts_of_a_group (ts : List Tok) :
    (∀ c : Char, c ≠ '.' → c ≠ '*' → ∃ part, groupGet ts (.str [c]) = .ok (.group part) ∧ part.Sublist ts ∧
      ∀ t, part.count t = if t.letter = c then ts.count t else 0) ∧
    groupGet ts (.str ['*']) = .ok (.group ts) ∧
    (∀ (before : List Tok) (t : Tok) (after : List Tok), ts = before ++ t :: after →
      groupGet ts (.int before.length) = .ok (.token t) ∧ groupGet ts (.int (-(after.length + 1 : Nat))) = .ok (.token t)) ∧
    (∀ n : Int, ts.length ≤ n ∨ n < -(ts.length : Nat) → groupGet ts (.int n) = .error .indexError) ∧
    (∀ s : Str, s.length ≠ 1 → groupGet ts (.str s) = .error .keyError) ∧ groupGet ts .other = .error .keyError := by
  refine ⟨fun c h1 h2 => ?_, rfl, ?_, ?_, ?_, rfl⟩
  · refine ⟨ts.filter fun t => t.letter == c, ?_, List.filter_sublist, fun t => ?_⟩
    · unfold groupGet
      dsimp only
      rw [if_neg (by simpa using h1), if_neg (by simpa using h2)]
    · by_cases h : t.letter = c
      · rw [if_pos h, List.count_filter (by simpa using h)]
      · rw [if_neg h, List.count_eq_zero]
        simp [h]
  · rintro before t after rfl
    constructor
    · unfold groupGet tokIndex
      simp only
      rw [if_neg (by omega), if_neg (by omega)]
      simp
    · unfold groupGet tokIndex
      simp only
      rw [if_pos (show -((after.length + 1 : Nat) : Int) < 0 by omega)]
      have : (-((after.length + 1 : Nat) : Int) + ((before ++ t :: after).length : Nat)) = (before.length : Int) := by
        simp only [List.length_append, List.length_cons]; omega
      rw [this, if_neg (by omega)]
      simp
  · intro n hn
    unfold groupGet tokIndex
    simp only
    by_cases h : n < 0
    · rw [if_pos h, if_pos (by omega)]
    · rw [if_neg h, if_neg h, List.getElem?_eq_none (by omega)]
  · intro s hs
    unfold groupGet
    match s with
    | [] => rfl
    | [c] => exact absurd rfl hs
    | a :: b :: r => dsimp only; rw [if_neg (by simp), if_neg (by simp)]

/-- **C85**, `group['.']`: the first token, if no class has the letter `.`. -/
theorem C85_first_of_a_group_partial (ts : List Tok) (h : ∀ t ∈ ts, t.letter ≠ '.') :
    groupGet ts (.str ['.']) = .ok (.group (ts.take 1)) := by
  cases ts with
  | nil => rfl
  | cons t ts =>
    show Except.ok (TokAnswer.group (firstNotDot (t :: ts))) = _
    rw [firstNotDot, if_pos (h t List.mem_cons_self)]
    rfl

example : -- the tokens of `5 megabytes`
    (∀ t ∈ [(⟨'n', "5".toList⟩ : Tok), ⟨'s', "megabytes".toList⟩], t.letter ≠ '.') ∧
    groupGet [⟨'n', "5".toList⟩, ⟨'s', "megabytes".toList⟩] (.str ['.']) = .ok (.group [⟨'n', "5".toList⟩]) := by
  exact ⟨by decide, rfl⟩

end Polog
