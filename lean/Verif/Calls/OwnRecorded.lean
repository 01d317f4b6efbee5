import Verif.Calls.OwnExceptions

/-! C27: who records an exception that Polog raises itself. -/

namespace Polog
open CallSpec

theorem loggedEnd_raised_same (env : CEnv) (d : Deco) (info : FnInfo) (e : Exc) (s : CallState) (he : e.isException = true)
    (ht : e.text.isSome = true) (hi : info.inputs.isSome = true) (h1 : d.suppressAll = false) (h2 : d.suppressed = []) :
    (loggedEnd env d info (.raised e) s).1 = .raised e := by
  obtain ⟨inputs, hi⟩ := Option.isSome_iff_exists.1 hi
  obtain ⟨t, ht⟩ := Option.isSome_iff_exists.1 ht
  have : (logException env d info e s).1 = none := by
    unfold logException
    dsimp only
    split
    · rfl
    · split
      · split
        · rw [ht, hi]
        · rfl
      · rfl
  unfold loggedEnd
  dsimp only
  rw [if_pos he]
  generalize logException env d info e s = r at this
  obtain ⟨r1, r2⟩ := r
  dsimp only at this
  subst this
  dsimp only
  rw [h1, h2]
  simp [excSuppressed]

/-- A decorated function whose result has no text, and whose level passes. -/
theorem unprintable_end (env : CEnv) (d : Deco) (info : FnInfo) (v : Val) (hv : v.text = none) (hp : Passes env d (.ret v)) :
    loggedEnd env d info (.ret v) .init = (.raised (internalExc 0), { CallState.init with next := 1 }) := by
  obtain ⟨n, hn, ht⟩ := hp
  have h0 : unlogStatus env .init = false := rfl
  simp only [loggedEnd, logNormal, h0, (normalLevel_iff env d n).2 hn, ht, hv, Bool.false_eq_true, if_true, if_false]
  rfl

/-- **C27**, for an exception that Polog raises itself. A decorated function returns a value that has no text, so that its call raises
instead. The call itself gives no record. The exception is recorded exactly once: by the next decorated function around it, if its
level passes, and by none of those farther out. -/
theorem C27_own_exception_is_recorded_by_the_next_partial (env : CEnv) (hd : env.dedup = true) (v : Val) (hv : v.text = none)
    (d : Deco) (info : FnInfo) (hp : Passes env d (.ret v)) (d' : Deco) (info' : FnInfo) (hi : info'.inputs.isSome = true)
    (outer : List (Deco × FnInfo)) (hs : ∀ x ∈ (d', info') :: outer, x.1.suppressAll = false ∧ x.1.suppressed = [])
    (hp' : Passes env d' (.raised (internalExc 0))) :
    ((callChain (.ret v) ((d, info) :: (d', info') :: outer)).run env .init).1 = .raised (internalExc 0) ∧
    ((callChain (.ret v) ((d, info) :: (d', info') :: outer)).run env .init).2.records.map Rec.origin =
      [.auto info' (.raised (internalExc 0))] := by
  obtain ⟨h1, h2⟩ := hs (d', info') List.mem_cons_self
  dsimp only at h1 h2
  have hrun : ∀ m, (Body.call (.logged d' info') (.call (.logged d info) (.ret v) andReturn) andReturn).run env
      { CallState.init with msg := m } =
      (.raised (internalExc 0), (loggedEnd env d' info' (.raised (internalExc 0)) { CallState.init with next := 1 }).2) := by
    intro m
    have ho := loggedEnd_raised_same env d' info' (internalExc 0) { CallState.init with next := 1 } rfl rfl hi h1 h2
    have hin : Body.run env (.call (.logged d info) (.ret v) andReturn) CallState.init =
        (.raised (internalExc 0), { CallState.init with next := 1 }) := by
      have hrw : Body.run env (.call (.logged d info) (.ret v) andReturn) CallState.init =
          match loggedEnd env d info (.ret v) CallState.init with
          | (o, s) => (andReturn o).run env s := rfl
      rw [hrw, unprintable_end env d info v hv hp]
      rfl
    have hrw : Body.run env (.call (.logged d' info') (.call (.logged d info) (.ret v) andReturn) andReturn)
        { CallState.init with msg := m } =
        match Body.run env (.call (.logged d info) (.ret v) andReturn) CallState.init with
        | (o, s) => match loggedEnd env d' info' o s with
          | (o, s) => (andReturn o).run env s := rfl
    rw [hrw, hin]
    dsimp only
    generalize loggedEnd env d' info' (.raised (internalExc 0)) { CallState.init with next := 1 } = r at ho
    obtain ⟨r1, r2⟩ := r
    dsimp only at ho
    subst ho
    rfl
  have hfx := endEffect_raised (env := env) (seen := []) (d := d') (info := info') (e := internalExc 0) none
    (s := { CallState.init with next := 1 }) hi rfl rfl (fun x => Iff.rfl)
  have hm : (internalExc 0).id ∈ (loggedEnd env d' info' (.raised (internalExc 0)) { CallState.init with next := 1 }).2.marked := by
    rw [hfx.marked]; simp [Event.exc?, internalExc]
  have hc := chain_run env hd (internalExc 0) rfl outer _ CallState.init _
    (fun x hx => hs x (List.mem_cons_of_mem _ hx)) hrun hfx.unlog hm none
  have hc : (callChain (.ret v) ((d, info) :: (d', info') :: outer)).run env .init = _ := hc
  rw [hc]
  refine ⟨rfl, ?_⟩
  obtain ⟨recs, e1, f1⟩ := hfx.records
  dsimp only
  rw [e1]
  have htr : ToRecord env [] (.ended d' info' (.raised (internalExc 0)) none) := ⟨hp', rfl, fun _ h => by cases h⟩
  rw [toRecord_pos htr] at f1
  cases f1 with
  | cons ha hf => cases hf; simp only [CallState.init, List.nil_append, List.map_cons, List.map_nil, ha.1]; rfl

/-- Three decorated functions, the innermost of which returns a value without text. -/
example : cEnv.dedup = true ∧ Passes cEnv (cDeco 9) (.ret ⟨1, none⟩) ∧ Passes cEnv (cDeco 3) (.raised (internalExc 0)) ∧
    (cFn "middle").inputs.isSome = true ∧
    ((callChain (.ret ⟨1, none⟩) [(cDeco 9, cFn "inner"), (cDeco 3, cFn "middle"), (cDeco 9, cFn "outer")]).run cEnv .init).2.records.map
      Rec.origin = [.auto (cFn "middle") (.raised (internalExc 0))] := by
  refine ⟨rfl, ?_, ?_, rfl, by decide +kernel⟩
  · exact ⟨9, (normalLevel_iff _ _ _).1 rfl, by decide⟩
  · exact ⟨5, errorsLevel_spec cEnv (cDeco 3), by decide⟩

end Polog
