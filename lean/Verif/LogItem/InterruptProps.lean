import Verif.LogItem.Interrupt
import Verif.LogItem.Lemmas

/-! What an interrupt during the processing of a log can cost (C82). -/

namespace Polog

variable {V : Type}

theorem Prog.runInt_fst {E : Type} (h : Prog V E) (l : LogItem V) : ∀ n, (h.runInt n l).1 = l := by
  induction h with
  | ret => intro n; match n with | none => rfl | some 0 => rfl | some (n + 1) => rfl
  | throw => intro n; match n with | none => rfl | some 0 => rfl | some (n + 1) => rfl
  | op o k ih =>
    intro n
    match n with
    | some 0 => rfl
    | none => simp only [Prog.runInt, LogItem.op_fst]; exact ih _ _
    | some (n + 1) => simp only [Prog.runInt, LogItem.op_fst]; exact ih _ _
  | emit e k ih =>
    intro n
    match n with
    | some 0 => rfl
    | none => exact ih _
    | some (n + 1) => exact ih _

theorem Prog.runInt_effects {E : Type} (h : Prog V E) (l : LogItem V) : ∀ n,
    (h.runInt n l).2.1 <+: (h.run l).2.1 ∧ ((h.runInt n l).2.2.2 ≠ none → (h.runInt n l).2.1 = (h.run l).2.1) := by
  induction h with
  | ret => intro n; match n with | none => exact ⟨List.prefix_refl _, fun _ => rfl⟩ | some 0 => exact ⟨List.nil_prefix, fun h => absurd rfl h⟩ | some (n + 1) => exact ⟨List.prefix_refl _, fun _ => rfl⟩
  | throw => intro n; match n with | none => exact ⟨List.prefix_refl _, fun _ => rfl⟩ | some 0 => exact ⟨List.nil_prefix, fun h => absurd rfl h⟩ | some (n + 1) => exact ⟨List.prefix_refl _, fun _ => rfl⟩
  | op o k ih =>
    intro n
    match n with
    | some 0 => exact ⟨List.nil_prefix, fun h => absurd rfl h⟩
    | none => simp only [Prog.runInt, Prog.run, LogItem.op_fst]; exact ih _ _
    | some (n + 1) => simp only [Prog.runInt, Prog.run, LogItem.op_fst]; exact ih _ _
  | emit e k ih =>
    intro n
    match n with
    | some 0 => exact ⟨List.nil_prefix, fun h => absurd rfl h⟩
    | none =>
      simp only [Prog.runInt, Prog.run]
      exact ⟨(List.prefix_cons_inj e).2 (ih _).1, fun h => by rw [(ih _).2 h]⟩
    | some (n + 1) =>
      simp only [Prog.runInt, Prog.run]
      exact ⟨(List.prefix_cons_inj e).2 (ih _).1, fun h => by rw [(ih _).2 h]⟩

/-- What the handlers do with the log without an interrupt. -/
def doneWith {H E : Type} (body : H → Prog V E) (l : LogItem V) (hs : List H) : List (CallRecord H V E) :=
  hs.map fun h => ⟨h, l, ((body h).run l).2.1⟩

theorem callHandlersInt_none {H E : Type} (body : H → Prog V E) (l : LogItem V) : ∀ hs,
    callHandlersInt body none hs l = (l, doneWith body l hs, .returned, none) := by
  intro hs
  induction hs with
  | nil => rfl
  | cons h hs ih =>
    simp only [callHandlersInt, callOneHandlerInt, Option.map_none, Prog.runInt_none, Prog.run_fst, ih]
    rfl

theorem callHandlersInt_cost {H E : Type} (body : H → Prog V E) (l : LogItem V) : ∀ hs n,
    ((callHandlersInt body n hs l).2.2.1 = .returned ∧
      ((callHandlersInt body n hs l).2.1 = doneWith body l hs ∨
        ∃ a c effects b, doneWith body l hs = a ++ c :: b ∧ effects <+: c.effects ∧
          (callHandlersInt body n hs l).2.1 = a ++ { c with effects := effects } :: b)) ∨
    ((callHandlersInt body n hs l).2.2.1 = .raised ∧ (callHandlersInt body n hs l).2.1 <+: doneWith body l hs) := by
  intro hs
  induction hs with
  | nil =>
    intro n
    match n with
    | none => exact .inl ⟨rfl, .inl rfl⟩
    | some 0 => exact .inr ⟨rfl, List.nil_prefix⟩
    | some (n + 1) => exact .inl ⟨rfl, .inl rfl⟩
  | cons h hs ih =>
    intro n
    have main : ∀ m, n ≠ some 0 → m = n.map (· - 1) → callHandlersInt body n (h :: hs) l =
        (let r := (body h).runInt m l
         let r' := callHandlersInt body r.2.2.2 hs l
         (r'.1, ⟨h, l, r.2.1⟩ :: r'.2.1, r'.2.2)) := by
      rintro m hn rfl
      match n with
      | none => simp only [callHandlersInt, callOneHandlerInt, Prog.runInt_fst]
      | some 0 => exact absurd rfl hn
      | some (n + 1) => simp only [callHandlersInt, callOneHandlerInt, Prog.runInt_fst]
    by_cases h0 : n = some 0
    · subst h0; exact .inr ⟨rfl, List.nil_prefix⟩
    · rw [main _ h0 rfl]
      dsimp only
      generalize n.map (· - 1) = m
      obtain ⟨e1, e2⟩ := Prog.runInt_effects (body h) l m
      generalize (body h).runInt m l = r at e1 e2
      obtain ⟨r1, eff, r3, m'⟩ := r
      dsimp only at e1 e2 ⊢
      by_cases hm : m' = none
      · subst hm
        rw [callHandlersInt_none]
        exact .inl ⟨rfl, .inr ⟨[], ⟨h, l, ((body h).run l).2.1⟩, eff, doneWith body l hs, rfl, e1, rfl⟩⟩
      · have := e2 hm
        subst this
        rcases ih m' with ⟨a, b⟩ | ⟨a, b⟩
        · refine .inl ⟨a, ?_⟩
          rcases b with b | ⟨p, c, effects, q, h1, h2, h3⟩
          · exact .inl (by rw [b]; rfl)
          · refine .inr ⟨⟨h, l, ((body h).run l).2.1⟩ :: p, c, effects, q, ?_, h2, ?_⟩
            · show _ :: doneWith body l hs = _; rw [h1]; rfl
            · rw [h3]; rfl
        · exact .inr ⟨a, (List.prefix_cons_inj _).2 b⟩

theorem extractFromInt_none (inter : Bool) : ∀ (fs : List (Str × Extractor V)) data,
    extractFromInt inter none fs data = (extractFrom inter fs data, .returned, none) := by
  intro fs
  induction fs with
  | nil => intro data; rfl
  | cons f fs ih =>
    intro data
    obtain ⟨name, field⟩ := f
    simp only [extractFromInt, extractFrom, Option.map_none]
    split
    · split
      · next h => rw [ih, h]
      · next h => rw [ih, h]
    · rw [ih]

theorem extractFromInt_cost (inter : Bool) : ∀ (fs : List (Str × Extractor V)) n data,
    (extractFromInt inter n fs data).2.1 = .returned →
    (extractFromInt inter n fs data).1 = extractFrom inter fs data ∨
    ((extractFromInt inter n fs data).2.2 = none ∧ ∃ a f b, fs = a ++ f :: b ∧
      (extractFromInt inter n fs data).1 = extractFrom inter (a ++ b) data) := by
  intro fs
  induction fs with
  | nil =>
    intro n data
    match n with
    | none => exact fun _ => .inl rfl
    | some 0 => exact fun h => nomatch h
    | some (n + 1) => exact fun _ => .inl (by simp [extractFromInt, extractFrom])
  | cons f fs ih =>
    intro n data
    obtain ⟨name, field⟩ := f
    have up : ∀ (m : Option Nat) (data data' : Dict Str V),
        (∀ rest, extractFrom inter ((name, field) :: rest) data = extractFrom inter rest data') →
        (extractFromInt inter m fs data').2.1 = .returned →
        (extractFromInt inter m fs data').1 = extractFrom inter ((name, field) :: fs) data ∨
        ((extractFromInt inter m fs data').2.2 = none ∧ ∃ a f b, (name, field) :: fs = a ++ f :: b ∧
          (extractFromInt inter m fs data').1 = extractFrom inter (a ++ b) data) := by
      intro m data data' he hr
      rcases ih m data' hr with h | ⟨h1, a, f, b, h2, h3⟩
      · exact .inl (by rw [h, he])
      · exact .inr ⟨h1, (name, field) :: a, f, b, by rw [h2]; rfl, by rw [h3, List.cons_append, he]⟩
    have step : ∀ m, (match m with | some 0 => False | some 1 => False | _ => True) →
        ∃ m' data', (∀ rest, extractFrom inter ((name, field) :: rest) data = extractFrom inter rest data') ∧
          extractFromInt inter m ((name, field) :: fs) data = extractFromInt inter m' fs data' := by
      intro m hm
      match m with
      | some 0 => exact hm.elim
      | some 1 => exact hm.elim
      | none =>
        by_cases hc : (!(Dict.has name data) || inter) = true
        · cases hf : field data with
          | ok v => exact ⟨none, Dict.set name v data, fun rest => by simp only [extractFrom, hc, hf, if_true], by
              simp only [extractFromInt, hc, hf, if_true, Option.map_none]⟩
          | error e => exact ⟨none, data, fun rest => by simp only [extractFrom, hc, hf, if_true], by
              simp only [extractFromInt, hc, hf, if_true, Option.map_none]⟩
        · exact ⟨none, data, fun rest => by simp only [extractFrom, hc]; rfl, by
              simp only [extractFromInt, hc, Option.map_none]; rfl⟩
      | some (m + 2) =>
        by_cases hc : (!(Dict.has name data) || inter) = true
        · cases hf : field data with
          | ok v => exact ⟨some m, Dict.set name v data, fun rest => by simp only [extractFrom, hc, hf, if_true], by
              simp only [extractFromInt, hc, hf, if_true, Option.map_some, Nat.add_sub_cancel]⟩
          | error e => exact ⟨some m, data, fun rest => by simp only [extractFrom, hc, hf, if_true], by
              simp only [extractFromInt, hc, hf, if_true, Option.map_some, Nat.add_sub_cancel]⟩
        · exact ⟨some m, data, fun rest => by simp only [extractFrom, hc]; rfl, by
              simp only [extractFromInt, hc, Option.map_some, Nat.add_sub_cancel]; rfl⟩
    match n with
    | some 0 => exact fun h => nomatch h
    | some 1 =>
      simp only [extractFromInt]
      split
      · intro _
        rw [extractFromInt_none]
        exact .inr ⟨rfl, [], (name, field), fs, rfl, rfl⟩
      · exact fun h => nomatch h
    | none =>
      obtain ⟨m', data', h1, h2⟩ := step none trivial
      rw [h2]; exact up m' data data' h1
    | some (m + 2) =>
      obtain ⟨m', data', h1, h2⟩ := step (some (m + 2)) trivial
      rw [h2]; exact up m' data data' h1

/-- **C82.** What an interrupt during the processing of a log costs. If the program is not told of it, the handlers do what they do
without an interrupt, or one extra field is missing from the log, or one handler does only the first part of its work. If the
program is told of it, then some of the first handlers have done what they do without an interrupt, and the others nothing. -/
theorem C82_cost_of_an_interrupt {H E : Type} (inter : Bool) (engineFields : List (Str × Extractor V)) (body : H → Prog V E)
    (handlers : List H) (l : LogItem V) (n : Nat) :
    let r := processLogInt inter engineFields body handlers l (some n)
    let undisturbed := fun fields => (processLog inter fields body handlers l).2.1
    (r.2.2.1 = .returned ∧
      (r.2.1 = undisturbed engineFields ∨
       (∃ a f b, engineFields = a ++ f :: b ∧ r.2.1 = undisturbed (a ++ b)) ∨
       ∃ a c effects b, undisturbed engineFields = a ++ c :: b ∧ effects <+: c.effects ∧
         r.2.1 = a ++ { c with effects := effects } :: b)) ∨
    (r.2.2.1 = .raised ∧ r.2.1 <+: undisturbed engineFields) := by
  intro r und
  have hu : ∀ fs, und fs = doneWith body ⟨some (extractFrom inter fs l.dict)⟩ handlers := by
    intro fs
    show (callHandlers body handlers _).2.1 = _
    rw [callHandlers_eq]; rfl
  have hx := extractFromInt_cost inter engineFields (some n) l.dict
  show (_ ∨ _)
  unfold r processLogInt
  generalize extractFromInt inter (some n) engineFields l.dict = x at hx ⊢
  obtain ⟨data, ending, m⟩ := x
  cases ending with
  | raised => exact .inr ⟨rfl, List.nil_prefix⟩
  | returned =>
    rcases hx rfl with h | ⟨h1, a, f, b, h2, h3⟩
    · dsimp only at h ⊢
      rw [hu, ← h]
      rcases callHandlersInt_cost body ⟨some data⟩ handlers m with ⟨h4, h5 | h5⟩ | h4
      · exact .inl ⟨h4, .inl h5⟩
      · exact .inl ⟨h4, .inr (.inr h5)⟩
      · exact .inr h4
    · dsimp only at h1 h3 ⊢
      subst h1
      rw [callHandlersInt_none]
      exact .inl ⟨rfl, .inr (.inl ⟨a, f, b, h2, by rw [hu, ← h3]⟩)⟩

-- an interrupt inside the extractor of the only field: the log lacks it, both handlers do their work
example : (processLogInt (V := Nat) (E := Nat) true [("f".toList, fun _ => .ok 5)] (fun h : Nat => .emit h .ret) [1, 2] ⟨some []⟩ (some 1)).2.1 =
    [⟨1, ⟨some []⟩, [1]⟩, ⟨2, ⟨some []⟩, [2]⟩] := rfl

end Polog
