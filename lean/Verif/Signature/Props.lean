import Verif.Signature.Spec

/-! C49: what is accepted as a handler, and what can be called with one argument. -/

namespace Polog
open SigSpec

section
variable {isId : Str → Bool}

/-- The result for the template with one dot. -/
theorem isPositional_eq (p : Param) : p.isPositional = isPos p := by
  obtain ⟨k, _, _⟩ := p
  cases k <;> rfl

theorem isNamed_eq (p : Param) : p.isNamed = isKey p := by
  obtain ⟨k, _, _⟩ := p
  cases k <;> rfl

theorem isHandler_sig (hid : isId ".".toList = false) (raise : Bool) (ps : List Param) :
    sigIsHandler isId raise (.sig ps) = .ok true ↔
      (∀ p ∈ ps, p.kind ≠ .varPositional) ∧ (∀ p ∈ ps, p.kind ≠ .varKeyword) ∧
      (ps.filter fun p => isPos p && !p.hasDefault).length = 1 ∧
      (∀ p ∈ ps, isKey p = true → p.hasDefault = false) := by
  have h0 : Matcher.init isId [".".toList] = ⟨false, false, 1, 0, []⟩ := by
    unfold Matcher.init
    simp only [List.filter_cons, hid, List.filter_nil]
    rfl
  unfold sigIsHandler
  rw [h0]
  unfold Matcher.matches Matcher.proveIsArgs Matcher.proveIsKwargs Matcher.proveNumberPositional
    Matcher.proveNumberNamed Matcher.proveNames
  simp only [isPositional_eq, isNamed_eq, List.all_nil, Bool.and_true, Except.ok.injEq, Bool.and_eq_true, beq_iff_eq]
  constructor
  · rintro ⟨⟨⟨h1, h2⟩, h3⟩, h4⟩
    refine ⟨?_, ?_, h3.symm, ?_⟩
    · intro p hp hk
      have : 0 < (ps.filter fun p => p.kind = .varPositional).length :=
        List.length_pos_of_mem (List.mem_filter.2 ⟨hp, by simpa using hk⟩)
      simp only [Eq.comm (a := false), bne_eq_false_iff_eq] at h1
      omega
    · intro p hp hk
      have : 0 < (ps.filter fun p => p.kind = .varKeyword).length :=
        List.length_pos_of_mem (List.mem_filter.2 ⟨hp, by simpa using hk⟩)
      simp only [Eq.comm (a := false), bne_eq_false_iff_eq] at h2
      omega
    · intro p hp hk
      cases hd : p.hasDefault with
      | false => rfl
      | true =>
        have : 0 < (ps.filter fun p => isKey p && p.hasDefault).length :=
          List.length_pos_of_mem (List.mem_filter.2 ⟨hp, by simp [hk, hd]⟩)
        omega
  · rintro ⟨h1, h2, h3, h4⟩
    refine ⟨⟨⟨?_, ?_⟩, h3.symm⟩, ?_⟩
    · rw [List.filter_eq_nil_iff.2 (fun p hp => by simpa using h1 p hp)]; rfl
    · rw [List.filter_eq_nil_iff.2 (fun p hp => by simpa using h2 p hp)]; rfl
    · rw [List.filter_eq_nil_iff.2 (fun p hp => ?_)]
      · rfl
      · intro hc
        rw [Bool.and_eq_true] at hc
        rw [h4 p hp hc.1] at hc
        exact nomatch hc.2

/-- When a call with one positional argument binds. -/
theorem oneArg_iff {ps : List Param} : OneArg ps ↔
    (positionals ps ≠ [] ∨ ∃ p ∈ ps, p.kind = .varPositional) ∧
    (∀ p ∈ (positionals ps).drop 1, p.hasDefault = true) ∧
    (∀ p ∈ ps, p.kind = .keywordOnly → p.hasDefault = true) := by
  unfold OneArg
  constructor
  · intro h
    refine ⟨?_, ?_, ?_⟩
    · rcases h.room with h | h
      · left; intro e; rw [e] at h; simp at h
      · exact .inr h
    · intro p hp
      rcases h.filled p hp with h | ⟨_, h⟩
      · exact h
      · cases h
    · intro p hp hk
      rcases h.filledKw p hp hk with h | h
      · exact h
      · cases h
  · rintro ⟨h1, h2, h3⟩
    refine ⟨?_, fun k hk => (nomatch hk), fun p hp => .inl (h2 p hp), fun p hp hk => .inl (h3 p hp hk)⟩
    rcases h1 with h | h
    · left
      cases hp : positionals ps with
      | nil => exact absurd hp h
      | cons _ _ => simp
    · exact .inr h

/-- In a valid signature the parameters without default come first among the positional ones. -/
theorem required_first {ps : List Param} (hv : Valid ps)
    (h : (ps.filter fun p => isPos p && !p.hasDefault).length = 1) :
    ∃ p rest, positionals ps = p :: rest ∧ p.hasDefault = false ∧ ∀ q ∈ rest, q.hasDefault = true := by
  have e : (ps.filter fun p => isPos p && !p.hasDefault) =
      (positionals ps).filter fun p => !p.hasDefault := by
    unfold positionals
    rw [List.filter_filter]
    congr 1; funext p; exact Bool.and_comm _ _
  rw [e] at h
  have hd : (positionals ps).Pairwise fun p q => p.hasDefault → q.hasDefault := by
    unfold positionals
    rw [List.pairwise_filter]
    exact hv.defaults.imp fun h a b => h a b
  generalize positionals ps = l at h hd
  cases l with
  | nil => cases h
  | cons p rest =>
    rw [List.pairwise_cons] at hd
    cases hp : p.hasDefault with
    | true =>
      exfalso
      have : (p :: rest).filter (fun p => !p.hasDefault) = [] := by
        rw [List.filter_eq_nil_iff]
        intro q hq
        rcases List.mem_cons.1 hq with rfl | hq
        · simp [hp]
        · simp [hd.1 q hq hp]
      rw [this] at h
      cases h
    | false =>
      refine ⟨p, rest, rfl, hp, fun q hq => ?_⟩
      rw [List.filter_cons_of_pos (by simp [hp])] at h
      have h0 : rest.filter (fun p => !p.hasDefault) = [] := by
        apply List.eq_nil_of_length_eq_zero
        simp only [List.length_cons] at h
        omega
      have := List.filter_eq_nil_iff.1 h0 q hq
      simpa using this

/-- **C49**: a callable accepted as a handler can be called with one positional argument, unless it
has a keyword-only parameter without a default (that case: `C49_accepted_not_callable_fails`). -/
theorem C49_accepted_callable_partial (hid : isId ".".toList = false) (raise : Bool)
    {ps : List Param} (hv : Valid ps) (h : sigIsHandler isId raise (.sig ps) = .ok true)
    (hkw : ∀ p ∈ ps, p.kind = .keywordOnly → p.hasDefault = true) : OneArg ps := by
  obtain ⟨_, _, h3, _⟩ := (isHandler_sig hid raise ps).1 h
  obtain ⟨p, rest, e, _, hr⟩ := required_first hv h3
  rw [oneArg_iff]
  refine ⟨.inl (by rw [e]; exact fun h => nomatch h), ?_, hkw⟩
  rw [e]
  exact hr

/-- **C49**: for accepted callables the exception above is exact. -/
theorem C49_accepted_callable_exactly (hid : isId ".".toList = false) (raise : Bool)
    {ps : List Param} (hv : Valid ps) (h : sigIsHandler isId raise (.sig ps) = .ok true) :
    OneArg ps ↔ ∀ p ∈ ps, p.kind ≠ .keywordOnly := by
  obtain ⟨_, _, _, h4⟩ := (isHandler_sig hid raise ps).1 h
  constructor
  · intro ho p hp hk
    have h1 := (oneArg_iff.1 ho).2.2 p hp hk
    rw [h4 p hp (by unfold isKey; simp [hk])] at h1
    cases h1
  · intro hk
    exact C49_accepted_callable_partial hid raise hv h fun p hp h' => absurd h' (hk p hp)

/-- **C49**: every plain one-argument function is accepted (and can be called with one argument). -/
theorem C49_plain_accepted (hid : isId ".".toList = false) (raise : Bool) {ps : List Param}
    (h : Plain ps) : sigIsHandler isId raise (.sig ps) = .ok true ∧ OneArg ps := by
  obtain ⟨p, rfl, hp, hd⟩ := h
  constructor
  · rw [isHandler_sig hid]
    refine ⟨?_, ?_, ?_, ?_⟩
    · intro q hq hk
      rw [List.mem_singleton.1 hq] at hk
      unfold isPos at hp
      rw [hk] at hp
      exact absurd hp (by decide)
    · intro q hq hk
      rw [List.mem_singleton.1 hq] at hk
      unfold isPos at hp
      rw [hk] at hp
      exact absurd hp (by decide)
    · simp [hp, hd]
    · intro q hq _
      rw [List.mem_singleton.1 hq]; exact hd
  · rw [oneArg_iff]
    have e : positionals [p] = [p] := by unfold positionals; simp [hp]
    rw [e]
    refine ⟨.inl (fun h => nomatch h), fun q hq => (nomatch hq), ?_⟩
    intro q hq hk
    rw [List.mem_singleton.1 hq] at hk
    unfold isPos at hp
    rw [hk] at hp
    exact absurd hp (by decide)

/-- **C49**: which functions that can be called with one argument are accepted: those without `*args`
and `**kwargs`, whose first parameter has no default, and whose only parameters with a default are
positional-only. -/
theorem C49_callable_accepted_exactly (hid : isId ".".toList = false) (raise : Bool)
    {ps : List Param} (h : OneArg ps) :
    sigIsHandler isId raise (.sig ps) = .ok true ↔
      (∀ p ∈ ps, p.kind ≠ .varPositional ∧ p.kind ≠ .varKeyword) ∧
      (∃ p, (positionals ps).head? = some p ∧ p.hasDefault = false) ∧
      (∀ p ∈ ps, p.hasDefault = true → p.kind = .positionalOnly) := by
  obtain ⟨h1, h2, h3⟩ := oneArg_iff.1 h
  have e : (ps.filter fun p => isPos p && !p.hasDefault) =
      (positionals ps).filter fun p => !p.hasDefault := by
    unfold positionals
    rw [List.filter_filter]
    congr 1; funext p; exact Bool.and_comm _ _
  have hcount : (ps.filter fun p => isPos p && !p.hasDefault).length = 1 ↔
      ∃ p, (positionals ps).head? = some p ∧ p.hasDefault = false := by
    rw [e]
    cases hp : positionals ps with
    | nil => simp
    | cons p rest =>
      rw [hp] at h2
      have hr : rest.filter (fun p => !p.hasDefault) = [] :=
        List.filter_eq_nil_iff.2 fun q hq => by simp [h2 q hq]
      rw [List.filter_cons, hr]
      cases hd : p.hasDefault <;> simp [hd]
  rw [isHandler_sig hid, hcount]
  constructor
  · rintro ⟨a, b, c, d⟩
    refine ⟨fun p hp => ⟨a p hp, b p hp⟩, c, fun p hp hd => ?_⟩
    have := d p hp
    unfold isKey at this
    rcases hk : p.kind with _ | _ | _ | _ | _
    · rfl
    · rw [hk] at this; rw [this (by decide)] at hd; cases hd
    · exact absurd hk (a p hp)
    · rw [hk] at this; rw [this (by decide)] at hd; cases hd
    · exact absurd hk (b p hp)
  · rintro ⟨a, c, d⟩
    refine ⟨fun p hp => (a p hp).1, fun p hp => (a p hp).2, c, fun p hp hn => ?_⟩
    cases hd : p.hasDefault with
    | false => rfl
    | true =>
      have := d p hp hd
      unfold isKey at hn
      rw [this] at hn
      exact absurd hn (by decide)

end

/-- **C49**: objects that are not callable, and callables without a signature, are never accepted. -/
theorem C49_not_callable_rejected (isId : Str → Bool) (raise : Bool) (f : SigObj)
    (hf : f = .notCallable ∨ f = .noSignature) :
    sigIsHandler isId raise f = if raise then .error .valueError else .ok false := by
  rcases hf with rfl | rfl <;> cases raise <;> rfl

/-! ### Witnesses -/

def pX : Param := ⟨.positionalOrKeyword, false, "x".toList⟩

/-- `def h(x, *, y)` -/
def exKwOnly : List Param := [pX, ⟨.keywordOnly, false, "y".toList⟩]
/-- `def h(x, y=1)` -/
def exDefault : List Param := [pX, ⟨.positionalOrKeyword, true, "y".toList⟩]
/-- `def h(*args)` -/
def exStar : List Param := [⟨.varPositional, false, "args".toList⟩]
/-- `def h(x, **fields)`: the shape named in the documentation of `is_handler` -/
def exFields : List Param := [pX, ⟨.varKeyword, false, "fields".toList⟩]
/-- `def h(x=None)` -/
def exOptional : List Param := [⟨.positionalOrKeyword, true, "x".toList⟩]
/-- `def h(x, y=1, /)` -/
def exPosOnly : List Param := [⟨.positionalOnly, false, "x".toList⟩, ⟨.positionalOnly, true, "y".toList⟩]

theorem exPosOnly_valid : Valid exPosOnly := ⟨by decide, by decide, by decide, by decide, by decide⟩

example (isId : Str → Bool) (hid : isId ".".toList = false) :
    sigIsHandler isId true (.sig exPosOnly) = .ok true ∧ OneArg exPosOnly := by
  have h : sigIsHandler isId true (.sig exPosOnly) = .ok true := by
    rw [isHandler_sig hid]; decide
  exact ⟨h, C49_accepted_callable_partial hid true exPosOnly_valid h (by decide)⟩

example : Plain [pX] := ⟨pX, rfl, rfl, rfl⟩

/-- **C49** fails: `def h(x, *, y)` is accepted but `h(record)` is a `TypeError`. -/
theorem C49_accepted_not_callable_fails (isId : Str → Bool) (hid : isId ".".toList = false) :
    Valid exKwOnly ∧ sigIsHandler isId true (.sig exKwOnly) = .ok true ∧ ¬ OneArg exKwOnly := by
  refine ⟨⟨by decide, by decide, by decide, by decide, by decide⟩, ?_, ?_⟩
  · rw [isHandler_sig hid]; decide
  · rw [oneArg_iff]; decide

/-- **C49** fails: functions that can be called with one argument and are rejected. -/
theorem C49_callable_rejected_fails (isId : Str → Bool) (hid : isId ".".toList = false) :
    ∀ ps ∈ [exDefault, exStar, exFields, exOptional],
      Valid ps ∧ OneArg ps ∧ sigIsHandler isId true (.sig ps) ≠ .ok true := by
  intro ps hps
  simp only [List.mem_cons, List.not_mem_nil, or_false] at hps
  rcases hps with rfl | rfl | rfl | rfl <;>
    exact ⟨⟨by decide, by decide, by decide, by decide, by decide⟩, by rw [oneArg_iff]; decide,
      by rw [ne_eq, isHandler_sig hid]; decide⟩

end Polog
