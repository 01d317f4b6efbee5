import Verif.Texts.Spec

/-! C100: texts of objects. -/

namespace Polog
open TextSpec

theorem textItems_spec {shown : TextVal → Option Str} {sep : Str} {entry : Str × TextVal → Str → Prop}
    (h : ∀ n v t, shown v = some t → entry (n, v) (n ++ sep ++ t)) :
    ∀ (d : Dict Str TextVal) (items : List Str), textItems shown sep d = some items →
      Listed entry d (joinStr ", ".toList items) := by
  have key : ∀ (d : Dict Str TextVal) (items : List Str), textItems shown sep d = some items →
      items.length = d.length ∧ Listed entry d (joinStr ", ".toList items) := by
    intro d
    induction d with
    | nil =>
      intro items hi
      cases hi
      exact ⟨rfl, .none⟩
    | cons x rest ih =>
      obtain ⟨n, v⟩ := x
      intro items hi
      simp only [textItems] at hi
      cases hv : shown v with
      | none => rw [hv] at hi; cases hi
      | some t =>
        rw [hv] at hi
        cases hr : textItems shown sep rest with
        | none => rw [hr] at hi; cases hi
        | some is =>
          rw [hr] at hi
          simp only [Option.map_some, Option.some.injEq] at hi
          subst hi
          obtain ⟨h1, h2⟩ := ih is hr
          refine ⟨by simp [h1], ?_⟩
          cases rest with
          | nil =>
            cases is with
            | nil => exact .one (h n v t hv)
            | cons _ _ => simp at h1
          | cons y rest =>
            cases is with
            | nil => simp at h1
            | cons i is => exact .more (h n v t hv) h2
  exact fun d items hi => (key d items hi).2

theorem textItems_none (shown : TextVal → Option Str) (sep : Str) (hs : ∀ v, shown v = none ↔ ¬ CanBeShown v) :
    ∀ d : Dict Str TextVal, textItems shown sep d = none ↔ ∃ x ∈ d, ¬ CanBeShown x.2 := by
  intro d
  induction d with
  | nil => simp [textItems]
  | cons x rest ih =>
    obtain ⟨n, v⟩ := x
    simp only [textItems, List.mem_cons]
    cases hv : shown v with
    | none =>
      have := (hs v).mp hv
      simp [this]
    | some t =>
      have : CanBeShown v := by
        refine Classical.byContradiction fun hc => ?_
        rw [(hs v).mpr hc] at hv
        cases hv
      simp [this, ih]

theorem quoted_none (v : TextVal) : v.quoted = none ↔ ¬ CanBeShown v := by
  cases v with
  | str s => simp [TextVal.quoted, CanBeShown]
  | other t => cases t <;> simp [TextVal.quoted, CanBeShown]

theorem plainText_none (v : TextVal) : v.plainText = none ↔ ¬ CanBeShown v := by
  cases v with
  | str s => simp [TextVal.plainText, CanBeShown]
  | other t => cases t <;> simp [TextVal.plainText, CanBeShown]

theorem entry_of_quoted (n : Str) (v : TextVal) (t : Str) (h : v.quoted = some t) : Entry (n, v) (n ++ " = ".toList ++ t) := by
  cases v with
  | str s =>
    cases h
    have : n ++ " = ".toList ++ ('"' :: s ++ ['"']) = n ++ " = \"".toList ++ s ++ "\"".toList := by simp
    rw [this]
    exact .str n s
  | other o =>
    cases h
    exact .other n t

/-- **C100.** The text of a log lists all its fields, in their order, each with its name and its value; a log without fields says that
it is empty. -/
theorem C100_text_lists_the_fields (id : Str) (fields : Option (Dict Str TextVal)) (text : Str)
    (h : logText id fields = some text) :
    (fields.getD [] = [] → text = "<log item #".toList ++ id ++ " (empty)>".toList) ∧
    (fields.getD [] ≠ [] → ∃ content, Listed Entry (fields.getD []) content ∧
      text = "<log item #".toList ++ id ++ " with content: ".toList ++ content ++ ">".toList) := by
  unfold logText at h
  split at h
  · cases h
    exact ⟨fun _ => rfl, fun hn => absurd rfl hn⟩
  · cases h
    exact ⟨fun _ => rfl, fun hn => absurd rfl hn⟩
  · rename_i d hd
    refine ⟨fun he => absurd he hd, fun _ => ?_⟩
    cases hi : textItems TextVal.quoted " = ".toList d with
    | none => rw [hi] at h; cases h
    | some items =>
      rw [hi] at h
      simp only [Option.map_some, Option.some.injEq] at h
      exact ⟨_, textItems_spec entry_of_quoted d items hi, h.symm⟩

/-- **C100.** Showing a log raises exactly when `str()` of one of its values raises. -/
theorem C100_raises_exactly (id : Str) (fields : Option (Dict Str TextVal)) :
    logText id fields = none ↔ ∃ x ∈ fields.getD [], ¬ CanBeShown x.2 := by
  rw [← textItems_none TextVal.quoted " = ".toList quoted_none]
  unfold logText
  split
  · simp [textItems]
  · simp [textItems]
  · simp

/-- What stands before a separator that does not occur in it is determined. -/
theorem split_at_first (c : Char) : ∀ {a b x y : Str}, c ∉ a → c ∉ b → a ++ c :: x = b ++ c :: y → a = b ∧ x = y := by
  intro a
  induction a with
  | nil =>
    intro b x y _ hb h
    cases b with
    | nil => simpa using h
    | cons d b =>
      simp only [List.nil_append, List.cons_append, List.cons.injEq] at h
      exact absurd (h.1 ▸ List.mem_cons_self) hb
  | cons d a ih =>
    intro b x y ha hb h
    cases b with
    | nil =>
      simp only [List.nil_append, List.cons_append, List.cons.injEq] at h
      exact absurd (h.1 ▸ List.mem_cons_self) ha
    | cons e b =>
      simp only [List.cons_append, List.cons.injEq] at h
      obtain ⟨h1, h2⟩ := ih (fun m => ha (List.mem_cons_of_mem _ m)) (fun m => hb (List.mem_cons_of_mem _ m)) h.2
      exact ⟨by rw [h.1, h1], h2⟩

/-- What can follow an entry: nothing or a comma. -/
def CommaNext (s : Str) : Prop := s = [] ∨ ∃ r, s = ',' :: r

theorem entry_prefix {f g : Str × TextVal} {e e' r r' : Str} (h : Entry f e) (h' : Entry g e') (hf : Legible f) (hg : Legible g)
    (hr : CommaNext r) (hr' : CommaNext r') (heq : e ++ r = e' ++ r') : f = g ∧ r = r' := by
  have name : ∀ {n n' x x' : Str}, ' ' ∉ n → ' ' ∉ n' → n ++ ' ' :: '=' :: ' ' :: x = n' ++ ' ' :: '=' :: ' ' :: x' →
      n = n' ∧ x = x' := by
    intro n n' x x' hn hn' h
    obtain ⟨h1, h2⟩ := split_at_first ' ' hn hn' h
    exact ⟨h1, by simpa using h2⟩
  have mixed : ∀ {t s r r' : Str}, t.head? ≠ some '"' → CommaNext r → t ++ r = '"' :: s ++ '"' :: r' → False := by
    intro t s r r' ht hr h
    cases t with
    | nil =>
      rcases hr with rfl | ⟨q, rfl⟩
      · simp at h
      · simp at h
    | cons c t =>
      simp only [List.cons_append, List.cons.injEq] at h
      exact ht (by rw [h.1]; rfl)
  cases h with
  | str n s =>
    cases h' with
    | str n' s' =>
      obtain ⟨h1, h2⟩ := name (n := n) (n' := n') hf.1 hg.1 (x := '"' :: s ++ '"' :: r) (x' := '"' :: s' ++ '"' :: r') (by simpa using heq)
      simp only [List.cons_append, List.cons.injEq, true_and] at h2
      obtain ⟨h3, h4⟩ := split_at_first '"' (hf.2.1 s rfl) (hg.2.1 s' rfl) h2
      exact ⟨by rw [h1, h3], h4⟩
    | other n' t' =>
      obtain ⟨h1, h2⟩ := name (n := n) (n' := n') hf.1 hg.1 (x := '"' :: s ++ '"' :: r) (x' := t' ++ r') (by simpa using heq)
      exact (mixed (hg.2.2 t' rfl).2 hr' h2.symm).elim
  | other n t =>
    cases h' with
    | str n' s' =>
      obtain ⟨h1, h2⟩ := name (n := n) (n' := n') hf.1 hg.1 (x := t ++ r) (x' := '"' :: s' ++ '"' :: r') (by simpa using heq)
      exact (mixed (hf.2.2 t rfl).2 hr h2).elim
    | other n' t' =>
      obtain ⟨h1, h2⟩ := name (n := n) (n' := n') hf.1 hg.1 (x := t ++ r) (x' := t' ++ r') (by simpa using heq)
      have c1 := (hf.2.2 t rfl).1
      have c2 := (hg.2.2 t' rfl).1
      rcases hr with rfl | ⟨q, rfl⟩ <;> rcases hr' with rfl | ⟨q', rfl⟩
      · simp only [List.append_nil] at h2
        exact ⟨by rw [h1, h2], rfl⟩
      · simp only [List.append_nil] at h2
        exact absurd (h2 ▸ List.mem_append_right _ List.mem_cons_self) c1
      · simp only [List.append_nil] at h2
        exact absurd (h2 ▸ List.mem_append_right _ List.mem_cons_self) c2
      · obtain ⟨h3, h4⟩ := split_at_first ',' c1 c2 h2
        exact ⟨by rw [h1, h3], by rw [h4]⟩

theorem Entry.ne_nil {f : Str × TextVal} {e : Str} (h : Entry f e) : e ≠ [] := by
  cases h <;> simp

theorem listed_nothing {d : List (Str × TextVal)} {c : Str} (h : Listed Entry d c) (hc : c = []) : d = [] := by
  cases h with
  | none => rfl
  | one he => exact absurd hc (Entry.ne_nil he)
  | more he _ => simp at hc

theorem listed_inj : ∀ {d d' : List (Str × TextVal)} {c : Str}, Listed Entry d c → Listed Entry d' c →
    (∀ f ∈ d, Legible f) → (∀ f ∈ d', Legible f) → d = d' := by
  intro d
  induction d with
  | nil =>
    intro d' c h h' _ _
    cases h
    exact (listed_nothing h' rfl).symm
  | cons f d ih =>
    intro d' c h h' hl hl'
    cases d' with
    | nil =>
      cases h'
      exact listed_nothing h rfl
    | cons g d' =>
      have shape : ∀ {f : Str × TextVal} {d : List (Str × TextVal)} {c : Str}, Listed Entry (f :: d) c →
          ∃ e r, Entry f e ∧ c = e ++ r ∧ ((d = [] ∧ r = []) ∨ ∃ rest, d ≠ [] ∧ r = ", ".toList ++ rest ∧ Listed Entry d rest) := by
        intro f d c h
        cases h with
        | one he => exact ⟨_, [], he, (List.append_nil _).symm, .inl ⟨rfl, rfl⟩⟩
        | more he hr => exact ⟨_, _, he, by rw [List.append_assoc], .inr ⟨_, by simp, rfl, hr⟩⟩
      obtain ⟨e, r, he, rfl, hr⟩ := shape h
      obtain ⟨e', r', he', hc, hr'⟩ := shape h'
      have cn : ∀ {d : List (Str × TextVal)} {r : Str},
          ((d = [] ∧ r = []) ∨ ∃ rest, d ≠ [] ∧ r = ", ".toList ++ rest ∧ Listed Entry d rest) → CommaNext r := by
        rintro d r (⟨-, rfl⟩ | ⟨rest, -, rfl, -⟩)
        · exact .inl rfl
        · exact .inr ⟨_, rfl⟩
      obtain ⟨hfg, hrr⟩ := entry_prefix he he' (hl f (by simp)) (hl' g (by simp)) (cn hr) (cn hr') hc
      subst hfg hrr
      rcases hr with ⟨rfl, rfl⟩ | ⟨rest, -, rfl, h1⟩
      · rcases hr' with ⟨rfl, -⟩ | ⟨rest', -, h2, -⟩
        · rfl
        · simp at h2
      · rcases hr' with ⟨-, h2⟩ | ⟨rest', -, h2, h3⟩
        · simp at h2
        · have : rest = rest' := by simpa using h2
          subst this
          rw [ih h1 h3 (fun f hf => hl f (by simp [hf])) (fun f hf => hl' f (by simp [hf]))]

/-- **C100, partly.** The text of a log tells all of it: two logs with the same text have the same fields with the same values (as
far as they are shown). Missing: strings with double quotes in them, values of other classes whose text has a comma, and
names with spaces (see `C100_text_of_a_log_is_ambiguous_fails`). -/
theorem C100_text_determines_the_fields_partial (id : Str) (d d' : Dict Str TextVal) (text : Str)
    (h : logText id (some d) = some text) (h' : logText id (some d') = some text)
    (hl : ∀ f ∈ d, Legible f) (hl' : ∀ f ∈ d', Legible f) : d = d' := by
  obtain ⟨a1, a2⟩ := C100_text_lists_the_fields id (some d) text h
  obtain ⟨b1, b2⟩ := C100_text_lists_the_fields id (some d') text h'
  simp only [Option.getD_some] at a1 a2 b1 b2
  have hne : ∀ c : Str, "<log item #".toList ++ id ++ " (empty)>".toList ≠
      "<log item #".toList ++ id ++ " with content: ".toList ++ c ++ ">".toList := by
    intro c hc
    have hc' : " (empty)>".toList = " with content: ".toList ++ c ++ ">".toList := by
      apply List.append_cancel_left (as := "<log item #".toList ++ id)
      simpa only [List.append_assoc] using hc
    simp at hc'
  by_cases e : d = [] <;> by_cases e' : d' = []
  · rw [e, e']
  · obtain ⟨c, -, hc⟩ := b2 e'
    rw [a1 e] at hc
    exact absurd hc (hne c)
  · obtain ⟨c, -, hc⟩ := a2 e
    rw [b1 e'] at hc
    exact absurd hc (hne c)
  · obtain ⟨c, hc, ht⟩ := a2 e
    obtain ⟨c', hc', ht'⟩ := b2 e'
    rw [ht] at ht'
    have : c = c' := List.append_cancel_left (List.append_cancel_right ht')
    subst this
    exact listed_inj hc hc' hl hl'

/-- **C100 fails** for strings with double quotes: a log with the message `x", level = "2` looks like a log with two
fields. -/
theorem C100_text_of_a_log_is_ambiguous_fails :
    logText "7".toList (some [("message".toList, .str "x\", level = \"2".toList)]) =
      logText "7".toList (some [("message".toList, .str "x".toList), ("level".toList, .str "2".toList)]) := by
  decide +kernel

/-- A log with two fields, one of them a text with a comma. -/
example : logText "7".toList (some [("message".toList, .str "a, b".toList), ("level".toList, .other (some "2".toList))]) =
      some "<log item #7 with content: message = \"a, b\", level = 2>".toList ∧
    ∀ f ∈ [("message".toList, TextVal.str "a, b".toList), ("level".toList, TextVal.other (some "2".toList))], Legible f := by
  refine ⟨by decide +kernel, ?_⟩
  intro f hf
  simp only [List.mem_cons, List.not_mem_nil, or_false] at hf
  rcases hf with rfl | rfl
  · refine ⟨by decide, fun s h => ?_, fun t h => nomatch h⟩
    cases h
    decide
  · refine ⟨by decide, fun s h => (nomatch h), fun t h => ?_⟩
    cases h
    decide

/-- **C100.** The text of the settings lists every setting once, in the order of the table, each with its present value; it
raises only when `str()` of one of the values raises. -/
theorem C100_text_of_settings (points : Dict Str TextVal) :
    (∀ text, settingsText points = some text → ∃ content, Listed PlainEntry points content ∧
      text = "<SettingStore object with data: ".toList ++ content ++ ">".toList) ∧
    (settingsText points = none ↔ ∃ x ∈ points, ¬ CanBeShown x.2) := by
  constructor
  · intro text h
    unfold settingsText at h
    cases hi : textItems TextVal.plainText " = ".toList points with
    | none => rw [hi] at h; cases h
    | some items =>
      rw [hi] at h
      simp only [Option.map_some, Option.some.injEq] at h
      refine ⟨_, textItems_spec (entry := PlainEntry) ?_ points items hi, h.symm⟩
      intro n v t hv
      cases v with
      | str s => cases hv; exact .str n _
      | other o => cases hv; exact .other n t
  · rw [← textItems_none TextVal.plainText " = ".toList plainText_none]
    unfold settingsText
    simp

/-- **C100.** The text of the object that `log(...)` returns lists the arguments it was given (a text given by position as
`message`) and what was added to them, in their order, and warns of its use. -/
theorem C100_text_of_a_log_object (data : Dict Str TextVal) :
    (∀ text, finText data = some text → ∃ content, Listed ArgEntry data content ∧
      finRepr data = some ("LoggerRouteFinalizer(".toList ++ content ++ ")".toList) ∧
      text = "<A LoggerRouteFinalizer(".toList ++ content ++ ") object, don't use it!>".toList) ∧
    (finText data = none ↔ ∃ x ∈ data, ¬ CanBeShown x.2) := by
  constructor
  · intro text h
    unfold finText finRepr at h
    cases hi : textItems TextVal.quoted "=".toList data with
    | none => rw [hi] at h; cases h
    | some items =>
      rw [hi] at h
      simp only [Option.map_some, Option.some.injEq] at h
      refine ⟨joinStr ", ".toList items, textItems_spec (entry := ArgEntry) ?_ data items hi, ?_, ?_⟩
      · intro n v t hv
        cases v with
        | str s =>
          cases hv
          have : n ++ "=".toList ++ ('"' :: s ++ ['"']) = n ++ "=\"".toList ++ s ++ "\"".toList := by simp
          rw [this]
          exact .str n s
        | other o => cases hv; exact .other n t
      · unfold finRepr
        rw [hi]
        rfl
      · rw [← h]
        simp
  · rw [← textItems_none TextVal.quoted "=".toList quoted_none]
    unfold finText finRepr
    simp

example : finText [("message".toList, .str "a".toList), ("level".toList, .other (some "2".toList))] =
    some "<A LoggerRouteFinalizer(message=\"a\", level=2) object, don't use it!>".toList := by
  decide +kernel

end Polog
