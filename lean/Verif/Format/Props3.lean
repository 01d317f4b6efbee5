import Verif.Format.Props2

/-! Property theorems: C45 (JSON of the arguments). -/

namespace Polog
open FormatSpec

theorem mapExcept_ok {A B : Type} (f : A → Except PyErr B) : ∀ (l : List A) (r : List B),
    mapExcept f l = .ok r ↔ List.Forall₂ (fun a b => f a = .ok b) l r := by
  intro l
  induction l with
  | nil =>
    intro r
    rw [mapExcept]
    constructor
    · intro h; cases h; exact .nil
    · intro h; cases h; rfl
  | cons a l ih =>
    intro r
    rw [mapExcept]
    constructor
    · intro h
      split at h
      · cases h
      · rename_i b hb
        split at h
        · cases h
        · rename_i l' hl
          cases h
          exact .cons hb ((ih l').1 hl)
    · intro h
      cases h with
      | cons hb hr =>
        rename_i b l'
        rw [hb]
        dsimp only
        rw [(ih l').2 hr]

theorem mapExcept_error {A B : Type} (f : A → Except PyErr B) : ∀ (l : List A),
    (∃ e, mapExcept f l = .error e) ↔ ∃ a ∈ l, ∃ e, f a = .error e := by
  intro l
  induction l with
  | nil => simp [mapExcept]
  | cons a l ih =>
    rw [mapExcept]
    cases hf : f a with
    | error e =>
      exact ⟨fun _ => ⟨a, List.mem_cons_self, e, hf⟩, fun _ => ⟨e, rfl⟩⟩
    | ok b =>
      dsimp only
      constructor
      · rintro ⟨e, he⟩
        split at he
        · rename_i e' he'
          obtain ⟨x, hx, hr⟩ := ih.1 ⟨_, he'⟩
          exact ⟨x, List.mem_cons_of_mem _ hx, hr⟩
        · cases he
      · rintro ⟨x, hx, e, he⟩
        rcases List.mem_cons.1 hx with rfl | hx
        · rw [hf] at he; cases he
        · obtain ⟨e', he'⟩ := ih.2 ⟨x, hx, e, he⟩
          rw [he']
          exact ⟨e', rfl⟩

theorem getItem_error (a : ArgVal) : (∃ e, getItem a = .error e) ↔ ¬ Printable a := by
  cases a with
  | prim b v t => simp [getItem, Printable]
  | other text type =>
    cases text with
    | none => simp [getItem, Printable]
    | some t => simp [getItem, Printable]

theorem forall₂_length {A B : Type} {R : A → B → Prop} {l : List A} {r : List B} (h : List.Forall₂ R l r) :
    l.length = r.length := h.length_eq

theorem forall₂_imp_mem {A B : Type} {R S : A → B → Prop} {l : List A} {r : List B} (h : List.Forall₂ R l r)
    (hi : ∀ a ∈ l, ∀ b, R a b → S a b) : List.Forall₂ S l r := by
  induction h with
  | nil => exact .nil
  | cons hab _ ih =>
    exact .cons (hi _ List.mem_cons_self _ hab) (ih fun a ha => hi a (List.mem_cons_of_mem _ ha))

/-- C45. There is no JSON of the arguments exactly when there are no arguments. -/
theorem C45_absent_exactly (args : List ArgVal) (kwargs : Dict Str ArgVal) :
    jsonVars args kwargs = .ok none ↔ args = [] ∧ kwargs = [] := by
  unfold jsonVars
  constructor
  · intro h
    split at h
    · rename_i h0
      exact ⟨List.length_eq_zero_iff.1 (by omega), List.length_eq_zero_iff.1 (by omega)⟩
    · split at h
      · cases h
      · split at h <;> cases h
  · rintro ⟨rfl, rfl⟩
    rfl

/-- C45. It is made for all arguments that have a text. -/
theorem C45_raises_exactly (args : List ArgVal) (kwargs : Dict Str ArgVal) :
    (∃ e, jsonVars args kwargs = .error e) ↔ (∃ a ∈ args, ¬ Printable a) ∨ ∃ x ∈ kwargs, ¬ Printable x.2 := by
  have hpair : ∀ x : Str × ArgVal, (∃ e, getItemPair x = .error e) ↔ ¬ Printable x.2 := by
    intro x
    rw [← getItem_error]
    unfold getItemPair
    cases getItem x.2 with
    | error e => exact ⟨fun _ => ⟨e, rfl⟩, fun _ => ⟨e, rfl⟩⟩
    | ok j => constructor <;> rintro ⟨e, he⟩ <;> cases he
  have ha : (∃ a ∈ args, ¬ Printable a) ↔ ∃ e, mapExcept getItem args = .error e := by
    rw [mapExcept_error]
    simp only [getItem_error]
  have hk : (∃ x ∈ kwargs, ¬ Printable x.2) ↔ ∃ e, mapExcept getItemPair kwargs = .error e := by
    rw [mapExcept_error]
    simp only [hpair]
  rw [ha, hk]
  unfold jsonVars
  constructor
  · rintro ⟨e, h⟩
    split at h
    · cases h
    · split at h
      · rename_i e' he'; exact Or.inl ⟨_, he'⟩
      · split at h
        · rename_i e' he'; exact Or.inr ⟨_, he'⟩
        · cases h
  · intro h
    split
    · rename_i h0
      have h1 : args = [] := List.length_eq_zero_iff.1 (by omega)
      have h2 : kwargs = [] := List.length_eq_zero_iff.1 (by omega)
      subst h1; subst h2
      rcases h with ⟨e, h⟩ | ⟨e, h⟩ <;> cases h
    · split
      · rename_i e' he'; exact ⟨_, rfl⟩
      · rename_i l hl
        split
        · rename_i e' he'; exact ⟨_, rfl⟩
        · rename_i m hm
          rcases h with ⟨e, h⟩ | ⟨e, h⟩
          · rw [hl] at h; cases h
          · rw [hm] at h; cases h

theorem jsonVars_some {args : List ArgVal} {kwargs : Dict Str ArgVal} {j : J} (h : jsonVars args kwargs = .ok (some j)) :
    ∃ as ks, List.Forall₂ (fun a e => getItem a = .ok e) args as ∧
      List.Forall₂ (fun x e => getItemPair x = .ok e) kwargs ks ∧
      j = .obj ((if args = [] then [] else [("args".toList, .arr as)]) ++
        (if kwargs = [] then [] else [("kwargs".toList, .obj ks)])) := by
  unfold jsonVars at h
  split at h
  · cases h
  · split at h
    · cases h
    · rename_i as has
      split at h
      · cases h
      · rename_i ks hks
        cases h
        rw [mapExcept_ok] at has hks
        refine ⟨as, ks, has, hks, ?_⟩
        have l1 := forall₂_length has
        have l2 := forall₂_length hks
        have e1 : (as.length ≠ 0) = ¬ (args = []) := by
          rw [← l1]; simp
        have e2 : (ks.length ≠ 0) = ¬ (kwargs = []) := by
          rw [← l2]; simp
        simp only [e1, e2, ite_not]

/-- C45 (partial: not for instances of subclasses of `bool`, `int`, `float` and `str`). The JSON of the arguments holds
exactly one entry for every positional argument, in their order, and one for every keyword argument, under its name and
in their order: the value itself for booleans, numbers and strings, the text of the value for others, and the name of
its class. -/
theorem C45_one_entry_each_partial (args : List ArgVal) (kwargs : Dict Str ArgVal) (j : J)
    (hexact : (∀ a ∈ args, Exact a) ∧ ∀ x ∈ kwargs, Exact x.2) (h : jsonVars args kwargs = .ok (some j)) :
    ∃ as ks, List.Forall₂ EntryOf args as ∧ List.Forall₂ (fun x e => x.1 = e.1 ∧ EntryOf x.2 e.2) kwargs ks ∧
      j = .obj ((if args = [] then [] else [("args".toList, .arr as)]) ++
        (if kwargs = [] then [] else [("kwargs".toList, .obj ks)])) := by
  obtain ⟨as, ks, h1, h2, h3⟩ := jsonVars_some h
  have item : ∀ a e, Exact a → getItem a = .ok e → EntryOf a e := by
    intro a e hx hg
    cases a with
    | prim base value type =>
      cases hg
      have : base = type := hx
      rw [this]
      exact rfl
    | other text type =>
      cases text with
      | none => cases hg
      | some t => cases hg; exact rfl
  refine ⟨as, ks, ?_, ?_, h3⟩
  · exact forall₂_imp_mem h1 fun a ha e he => item a e (hexact.1 a ha) he
  · refine forall₂_imp_mem h2 fun x hx e he => ?_
    unfold getItemPair at he
    cases hg : getItem x.2 with
    | error e' => rw [hg] at he; cases he
    | ok j' =>
      rw [hg] at he
      cases he
      exact ⟨rfl, item _ _ (hexact.2 x hx) hg⟩

/-- C45 fails for an instance of a subclass, such as a member of an `IntEnum`: the name of its class is lost. -/
theorem C45_subclass_fails : ∃ (a : ArgVal) (j e : J), jsonVars [a] [] = .ok (some j) ∧
    j = .obj [("args".toList, .arr [e])] ∧ ¬ EntryOf a e := by
  refine ⟨.prim "int".toList (.int 1) "Color".toList, _, _, rfl, rfl, ?_⟩
  intro h
  unfold EntryOf Holds at h
  injection h with h
  injection h with _ h
  injection h with h _
  injection h with _ h
  injection h with h
  revert h
  decide

theorem joinStr_append (sep : Str) (a b : List Str) (ha : a ≠ []) (hb : b ≠ []) :
    joinStr sep (a ++ b) = joinStr sep a ++ sep ++ joinStr sep b := by
  induction a with
  | nil => exact absurd rfl ha
  | cons x a ih =>
    cases a with
    | nil =>
      cases b with
      | nil => exact absurd rfl hb
      | cons y b => rfl
    | cons x' a =>
      rw [List.cons_append, List.cons_append, joinStr, joinStr]
      rw [← List.cons_append, ih (fun h => nomatch h)]
      simp only [List.append_assoc]

theorem holds_get {j v : J} {t : Str} (h : Holds j v t) : j.get "value" = .ok v ∧ j.get "type" = .ok (.str t) := by
  unfold Holds at h
  subst h
  unfold J.get
  dsimp only [Dict.get?]
  rw [if_pos rfl, if_neg (by decide), if_pos rfl]
  exact ⟨rfl, rfl⟩

theorem humanReadable_holds (env : FmtEnv) {j v : J} {t : Str} (h : Holds j v t) :
    humanReadable env j = .ok ((if t = "str".toList then ['"'] ++ v.text env ++ ['"'] else v.text env) ++
      " (".toList ++ t ++ ")".toList) := by
  obtain ⟨h1, h2⟩ := holds_get h
  unfold humanReadable
  rw [h1, h2]
  dsimp only
  unfold J.isStrType
  by_cases e : t = "str".toList
  · subst e
    dsimp only
    rw [if_pos (by decide), if_pos rfl]
    rfl
  · dsimp only
    rw [if_neg (by simpa using e), if_neg e]
    rfl

theorem humanReadable_item (env : FmtEnv) {a : ArgVal} {j : J} (h : getItem a = .ok j) :
    ∃ t, humanReadable env j = .ok t ∧ ArgText env a t := by
  cases a with
  | prim base value type =>
    cases h
    exact ⟨_, humanReadable_holds env rfl, rfl⟩
  | other text type =>
    cases text with
    | none => cases h
    | some s =>
      cases h
      exact ⟨_, humanReadable_holds env rfl, rfl⟩

theorem mapExcept_of {A B C : Type} {R : A → B → Prop} {S : A → C → Prop} {f : B → Except PyErr C}
    (hf : ∀ a b, R a b → ∃ c, f b = .ok c ∧ S a c) : ∀ {l : List A} {r : List B}, List.Forall₂ R l r →
    ∃ ts, mapExcept f r = .ok ts ∧ List.Forall₂ S l ts := by
  intro l r h
  induction h with
  | nil => exact ⟨[], rfl, .nil⟩
  | cons hab _ ih =>
    obtain ⟨ts, h1, h2⟩ := ih
    obtain ⟨c, hc, hs⟩ := hf _ _ hab
    refine ⟨c :: ts, ?_, .cons hs h2⟩
    rw [mapExcept, hc]
    dsimp only
    rw [h1]

theorem args_get (A : Option J) (K : Option J) :
    (J.obj ((match A with | none => [] | some a => [("args".toList, a)]) ++
      (match K with | none => [] | some k => [("kwargs".toList, k)]))).get "args" = .ok (A.getD .null) ∧
    (J.obj ((match A with | none => [] | some a => [("args".toList, a)]) ++
      (match K with | none => [] | some k => [("kwargs".toList, k)]))).get "kwargs" = .ok (K.getD .null) := by
  have h1 : "args".toList ≠ "kwargs".toList := by decide
  have h2 : "kwargs".toList ≠ "args".toList := by decide
  cases A with
  | none =>
    cases K with
    | none => exact ⟨rfl, rfl⟩
    | some k =>
      unfold J.get
      dsimp only [List.nil_append, Dict.get?]
      rw [if_neg h2, if_pos rfl]
      exact ⟨rfl, rfl⟩
  | some a =>
    cases K with
    | none =>
      unfold J.get
      dsimp only [List.append_nil, List.cons_append, List.nil_append, Dict.get?]
      rw [if_pos rfl, if_neg h1]
      exact ⟨rfl, rfl⟩
    | some k =>
      unfold J.get
      dsimp only [List.cons_append, List.nil_append, Dict.get?]
      rw [if_pos rfl, if_neg h1, if_pos rfl]
      exact ⟨rfl, rfl⟩

/-- The text of the arguments, from their JSON. -/
theorem jsonVariables_text (env : FmtEnv) (args : List ArgVal) (kwargs : Dict Str ArgVal) (j : J)
    (dumped : Str) (h : jsonVars args kwargs = .ok (some j)) (hne : dumped ≠ []) (hloads : env.loads dumped = .ok j) :
    ∃ texts ktexts, List.Forall₂ (ArgText env) args texts ∧ List.Forall₂ (KwargText env) kwargs ktexts ∧
      jsonVariablesToText env (.str dumped) = .ok (some (List.intercalate ", ".toList (texts ++ ktexts))) := by
  obtain ⟨as, ks, h1, h2, hj⟩ := jsonVars_some h
  obtain ⟨texts, ht1, ht2⟩ := mapExcept_of (S := ArgText env) (fun a b hab => humanReadable_item env hab) h1
  obtain ⟨ktexts, hk1, hk2⟩ := mapExcept_of (f := humanPair env) (S := KwargText env) (fun x e hxe => by
    unfold getItemPair at hxe
    cases hg : getItem x.2 with
    | error e' => rw [hg] at hxe; cases hxe
    | ok j' =>
      rw [hg] at hxe
      cases hxe
      obtain ⟨t, h1, h2⟩ := humanReadable_item env hg
      refine ⟨_, ?_, t, h2, rfl⟩
      unfold humanPair
      dsimp only
      rw [h1]
      rfl) h2
  refine ⟨texts, ktexts, ht2, hk2, ?_⟩
  unfold jsonVariablesToText
  rw [if_pos (by unfold FVal.truthy; simpa using hne)]
  unfold loadsV
  dsimp only
  rw [hloads]
  dsimp only
  rw [← joinStr_eq]
  have la := ht2.length_eq
  have lk := hk2.length_eq
  have main : variablesText env j = .ok (some (joinStr ", ".toList (texts ++ ktexts))) := by
    have hargs : j.get "args" = .ok (if args = [] then .null else .arr as) ∧
        j.get "kwargs" = .ok (if kwargs = [] then .null else .obj ks) := by
      have := args_get (if args = [] then none else some (.arr as)) (if kwargs = [] then none else some (.obj ks))
      rw [hj]
      by_cases ea : args = [] <;> by_cases ek : kwargs = []
      all_goals
        simp only [ea, ek, if_true, if_false] at this ⊢
        exact this
    have hA : argsPart env (if args = [] then .null else .arr as) =
        .ok (if args = [] then [] else [joinStr ", ".toList texts]) := by
      by_cases ea : args = []
      · rw [if_pos ea, if_pos ea]; rfl
      · rw [if_neg ea, if_neg ea]
        unfold argsPart
        rw [if_neg (by simp [J.isNull])]
        dsimp only [J.items]
        rw [ht1]
        rfl
    have hK : kwargsPart env (if kwargs = [] then .null else .obj ks) =
        .ok (if kwargs = [] then [] else [joinStr ", ".toList ktexts]) := by
      by_cases ek : kwargs = []
      · rw [if_pos ek, if_pos ek]; rfl
      · rw [if_neg ek, if_neg ek]
        unfold kwargsPart
        rw [if_neg (by simp [J.isNull])]
        dsimp only [J.pairs]
        rw [hk1]
        rfl
    unfold variablesText
    rw [hargs.1, hargs.2]
    dsimp only
    rw [hA, hK, if_neg]
    · dsimp only
      by_cases ea : args = [] <;> by_cases ek : kwargs = []
      · subst ea; subst ek; cases ht2; cases hk2; rfl
      · subst ea
        cases ht2
        rw [if_pos rfl, if_neg ek]
        rfl
      · subst ek
        cases hk2
        rw [if_neg ea, if_pos rfl, List.append_nil, List.append_nil]
        rfl
      · rw [if_neg ea, if_neg ek, joinStr_append _ texts ktexts]
        · rfl
        · intro e; rw [e] at la; exact ea (List.length_eq_zero_iff.1 la)
        · intro e; rw [e] at lk; exact ek (List.length_eq_zero_iff.1 lk)
    · intro hb
      by_cases ea : args = []
      · by_cases ek : kwargs = []
        · subst ea; subst ek
          rw [(C45_absent_exactly [] []).2 ⟨rfl, rfl⟩] at h
          cases h
        · rw [if_neg ek] at hb
          simp [J.isNull] at hb
      · rw [if_neg ea] at hb
        simp [J.isNull] at hb
  rw [main]

/-- C45, C42. From the call to the line: the text `input variables: …` lists all positional arguments in their order and
then all keyword arguments in theirs, if the JSON read back is the JSON written. -/
theorem C45_text_lists_all_arguments (env : FmtEnv) (log : FLog) (args : List ArgVal) (kwargs : Dict Str ArgVal) (j : J)
    (dumped : Str) (h : jsonVars args kwargs = .ok (some j)) (hne : dumped ≠ []) (hloads : env.loads dumped = .ok j)
    (hlog : fget log "input_variables" = .str dumped) :
    ∃ texts ktexts, List.Forall₂ (ArgText env) args texts ∧ List.Forall₂ (KwargText env) kwargs ktexts ∧
      Cell env log "input_variables".toList
        (some ("input variables: ".toList ++ List.intercalate ", ".toList (texts ++ ktexts))) := by
  have key : ∀ t, exInput env log = .ok (some t) → Cell env log "input_variables".toList (some t) := fun t h =>
    .own _ ⟨exInput, by simp only [fieldHandlers, List.mem_cons, true_or, or_true], h⟩
  obtain ⟨texts, ktexts, h1, h2, h3⟩ := jsonVariables_text env args kwargs j dumped h hne hloads
  refine ⟨texts, ktexts, h1, h2, key _ ?_⟩
  unfold exInput
  rw [hlog, h3]
  rfl

/-- `f(1, 'a', obj, flag=True)`: four entries, and the text of the line. -/
example : jsonVars [.prim "int".toList (.int 1) "int".toList, .prim "str".toList (.str "a".toList) "str".toList,
      .other (some "<obj>".toList) "Thing".toList] [("flag".toList, .prim "bool".toList (.bool true) "bool".toList)] =
    .ok (some (.obj [
      ("args".toList, .arr [.obj [("value".toList, .int 1), ("type".toList, .str "int".toList)],
        .obj [("value".toList, .str "a".toList), ("type".toList, .str "str".toList)],
        .obj [("value".toList, .str "<obj>".toList), ("type".toList, .str "Thing".toList)]]),
      ("kwargs".toList, .obj [("flag".toList,
        .obj [("value".toList, .bool true), ("type".toList, .str "bool".toList)])])])) := rfl

def argsExampleEnv : FmtEnv :=
  { fmtExampleEnv with
    loads := fun _ => .ok (.obj [
      ("args".toList, .arr [.obj [("value".toList, .int 1), ("type".toList, .str "int".toList)],
        .obj [("value".toList, .str "a".toList), ("type".toList, .str "str".toList)]]),
      ("kwargs".toList, .obj [("flag".toList,
        .obj [("value".toList, .bool true), ("type".toList, .str "bool".toList)])])]) }

example : exInput argsExampleEnv [("input_variables".toList, .str "{…}".toList)] =
    .ok (some "input variables: 1 (int), \"a\" (str), flag = True (bool)".toList) := by
  decide +kernel

end Polog
