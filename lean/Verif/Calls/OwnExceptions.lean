import Verif.Calls.Props

/-! C27: exceptions that Polog raises itself are new ones. -/

namespace Polog

theorem logNormal_next (env : CEnv) (d : Deco) (info : FnInfo) (v : Val) (s : CallState) :
    (∀ e, (logNormal env d info v s).1 = some e →
      e.id = .internal s.next ∧ (logNormal env d info v s).2.next = s.next + 1) ∧
    s.next ≤ (logNormal env d info v s).2.next := by
  unfold logNormal
  by_cases hu : unlogStatus env s = true
  · simp [hu]
  cases hl : normalLevel env d.level with
  | error e => simp [hu, internalExc]
  | ok level =>
    by_cases ht : env.h.threshold ≤ level
    · cases hv : v.text with
      | none => simp [hu, ht, internalExc]
      | some text => cases hi : info.inputs <;> simp [hu, ht, internalExc]
    · simp [hu, ht]

theorem logException_next (env : CEnv) (d : Deco) (info : FnInfo) (e : Exc) (s : CallState) :
    (∀ e', (logException env d info e s).1 = some e' →
      e'.id = .internal s.next ∧ (logException env d info e s).2.next = s.next + 1) ∧
    s.next ≤ (logException env d info e s).2.next := by
  unfold logException
  by_cases hu : unlogStatus env s = true
  · simp [hu]
  by_cases hd : e.id ∉ s.marked ∨ env.dedup = false
  · by_cases ht : env.h.threshold ≤ errorsLevel env d.errLevel d.level
    · cases hv : e.text <;> cases hi : info.inputs <;> simp [hu, hd, ht, internalExc]
    · simp [hu, hd, ht]
  · simp [hu, hd]

theorem loggedEnd_next (env : CEnv) (d : Deco) (info : FnInfo) (o : Outcome) (s : CallState) :
    (∀ e, (loggedEnd env d info o s).1 = .raised e → o ≠ .raised e →
      e.id = .internal s.next ∧ (loggedEnd env d info o s).2.next = s.next + 1) ∧
    s.next ≤ (loggedEnd env d info o s).2.next := by
  cases o with
  | ret v =>
    obtain ⟨h1, h2⟩ := logNormal_next env d info v s
    simp only [loggedEnd]
    rcases hr : logNormal env d info v s with ⟨x, s'⟩
    rw [hr] at h1 h2
    cases x with
    | none => exact ⟨(fun e h => nomatch h), h2⟩
    | some e0 =>
      refine ⟨fun e h _ => ?_, h2⟩
      cases h
      exact h1 e0 rfl
  | raised e0 =>
    obtain ⟨h1, h2⟩ := logException_next env d info e0 s
    simp only [loggedEnd]
    by_cases he : e0.isException = true
    · rw [if_pos he]
      rcases hr : logException env d info e0 s with ⟨x, s'⟩
      rw [hr] at h1 h2
      cases x with
      | none =>
        dsimp only
        by_cases hs : d.suppressAll = true
        · rw [if_pos hs]; exact ⟨(fun e h => nomatch h), h2⟩
        · rw [if_neg hs]
          by_cases hs' : excSuppressed env d.suppressed e0 = true
          · rw [if_pos hs']; exact ⟨(fun e h => nomatch h), h2⟩
          · rw [if_neg hs']; exact ⟨fun e h hn => absurd h hn, h2⟩
      | some e1 =>
        refine ⟨fun e h _ => ?_, h2⟩
        cases h
        exact h1 e1 rfl
    · rw [if_neg he]
      exact ⟨fun e h hn => absurd h hn, Nat.le_refl _⟩

theorem blockEnd_next (env : CEnv) (b : BlockOpts) (o : Outcome) (s : CallState) :
    (∀ e, (blockEnd env b o s).1 = .raised e → o ≠ .raised e →
      e.id = .internal s.next ∧ (blockEnd env b o s).2.next = s.next + 1) ∧
    s.next ≤ (blockEnd env b o s).2.next := by
  unfold blockEnd
  by_cases hp : o.printable = true
  · rw [if_pos hp]
    dsimp only
    cases (baseCall simpleLogger { env.h with unlogged := unlogStatus env s } [] (blockData env b o)).raised with
    | some x =>
      refine ⟨fun e h _ => ?_, Nat.le_succ _⟩
      cases h
      exact ⟨rfl, rfl⟩
    | none =>
      cases o with
      | ret v => exact ⟨(fun e h => nomatch h), Nat.le_refl _⟩
      | raised e0 =>
        dsimp only
        by_cases hs : blockSwallows env b e0 = true
        · rw [if_pos hs]; exact ⟨(fun e h => nomatch h), Nat.le_refl _⟩
        · rw [if_neg hs]; exact ⟨fun e h hn => absurd h hn, Nat.le_refl _⟩
  · rw [if_neg hp]
    refine ⟨fun e h _ => ?_, Nat.le_succ _⟩
    cases h
    exact ⟨rfl, rfl⟩

theorem run_next (env : CEnv) (b : Body) : ∀ s, s.next ≤ (b.run env s).2.next := by
  induction b with
  | ret v => intro s; exact Nat.le_refl _
  | raise e => intro s; exact Nat.le_refl _
  | call kind b k ihb ihk =>
    intro s
    cases kind with
    | plain => exact Nat.le_trans (ihb s) (ihk _ _)
    | logged d info =>
      exact Nat.le_trans (Nat.le_trans (ihb { s with msg := none }) (loggedEnd_next env d info _ _).2) (ihk _ _)
    | unlogged full =>
      have h := ihb { s with unlog := some full }
      exact Nat.le_trans h (ihk _ { (b.run env { s with unlog := some full }).2 with unlog := none })
  | block o b k ihb ihk => intro s; exact Nat.le_trans (Nat.le_trans (ihb s) (blockEnd_next env o _ _).2) (ihk _ _)
  | msg args kwargs k ih =>
    intro s
    simp only [Body.run]
    split
    · exact ih _ _
    · exact ih _ _
    · rename_i fields _
      exact ih none { s with msg := some fields }
  | manual args kwargs k ih =>
    intro s
    simp only [Body.run]
    refine Nat.le_trans (Nat.le_of_eq ?_) (ih _ _)
    rfl

/-- **C27**, the exceptions of Polog itself (a result without text, a wrong level): what a decorated function or a block raises instead of
what its code did is a new exception, which nothing before has raised: its number is the first one that is free, and it is taken. Numbers
that are taken stay taken, whatever program runs. (So such an exception is never mistaken for one that has been recorded.) -/
theorem C27_exceptions_of_polog_are_new (env : CEnv) (s : CallState) :
    (∀ d info o e, (loggedEnd env d info o s).1 = .raised e → o ≠ .raised e →
      e.id = .internal s.next ∧ (loggedEnd env d info o s).2.next = s.next + 1) ∧
    (∀ opts o e, (blockEnd env opts o s).1 = .raised e → o ≠ .raised e →
      e.id = .internal s.next ∧ (blockEnd env opts o s).2.next = s.next + 1) ∧
    ∀ b : Body, s.next ≤ (b.run env s).2.next :=
  ⟨fun d info o => (loggedEnd_next env d info o s).1, fun opts o => (blockEnd_next env opts o s).1, fun b => run_next env b s⟩

/-- A function whose result has no text raises such an exception, and with the next call another one. -/
example : ∃ s' s'' : CallState, loggedEnd cEnv (cDeco 9) (cFn "f") (.ret ⟨1, none⟩) .init = (.raised (internalExc 0), s') ∧
    loggedEnd cEnv (cDeco 9) (cFn "f") (.ret ⟨1, none⟩) s' = (.raised (internalExc 1), s'') ∧
    (internalExc 0).id ≠ (internalExc 1).id :=
  ⟨{ CallState.init with next := 1 }, { CallState.init with next := 2 }, by rfl, by rfl, by decide⟩

end Polog
