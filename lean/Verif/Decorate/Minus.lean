import Verif.Decorate.UnlogProps
import Verif.Decorate.Props

/-! C104: `@(-log)`. -/

namespace Polog
open DecorateSpec

/-- What a program can put a minus before: `log`, `unlog`, `log.<level>` and `log(...)`. router.py:120-124, unlog.py:50-57; the classes of
partial.py and finalizer.py have no `__neg__`. -/
inductive Signed where
  | log
  | unlog
  | level (name : Str)
  | call (f : Fin)

/-- `-x`: router.py:120-124, unlog.py:50-57. -/
def Signed.minus : Signed → Except PyErr Signed
  | .log => .ok .unlog
  | .unlog => .ok .log
  | _ => .error .typeError

/-- `n` signs before `x`. router.py:120-124, unlog.py:50-57. -/
def Signed.signs : Nat → Signed → Except PyErr Signed
  | 0, x => .ok x
  | n + 1, x =>
    match Signed.signs n x with
    | .ok y => y.minus
    | .error e => .error e

/-- The use of `log` or `unlog` as a decorator of a function, without brackets: router.py:71-98, unlog.py:21-48. (Decorators with
brackets and levels are in `Router/Model.lean`; here they are not used.) -/
def Signed.decorate (env : DEnv) (order : List Str → List Str) (w : DWorld) (f : FObj) : Signed → DWorld × Except PyErr URes
  | .log =>
    match decorateFunction env w.reg false [] [] f with
    | .ok (g, r) => ({ w with reg := r }, .ok (.fn g))
    | .error e => (w, .error e)
  | .unlog => w.unlogCall order [.fn f] none
  | _ => (w, .error .incorrectUse)

theorem Signed.signs_log : ∀ n, Signed.signs n .log = .ok (if n % 2 = 0 then .log else .unlog)
  | 0 => rfl
  | n + 1 => by
    rw [Signed.signs, Signed.signs_log n]
    dsimp only
    by_cases h : n % 2 = 0
    · rw [if_pos h, if_neg (by omega)]; rfl
    · rw [if_neg h, if_pos (by omega)]; rfl

/-- **C104, the minus**: `@(-log)` does to every function what `@unlog` does. In general an odd number of signs makes `@unlog` of `log`, an
even number leaves `@log`, which wraps the function with the default arguments; the minus before `log.<level>` and before `log(...)` is a
`TypeError`. -/
theorem C104_minus_signs (env : DEnv) (order : List Str → List Str) (w : DWorld) (f : FObj) :
    (∀ n, n % 2 = 1 → ∃ x, Signed.signs n .log = .ok x ∧ x.decorate env order w f = w.unlogCall order [.fn f] none) ∧
    (∀ n, n % 2 = 0 → ∃ x, Signed.signs n .log = .ok x ∧ ∃ g r, decorateFunction env w.reg false [] [] f = .ok (g, r) ∧
      x.decorate env order w f = ({ w with reg := r }, .ok (.fn g))) ∧
    (∀ name n, 0 < n → Signed.signs n (.level name) = .error .typeError) ∧
    (∀ fin n, 0 < n → Signed.signs n (.call fin) = .error .typeError) := by
  refine ⟨fun n h => ⟨.unlog, ?_, rfl⟩, fun n h => ⟨.log, ?_, ?_⟩, fun name n h => ?_, fun fin n h => ?_⟩
  · rw [Signed.signs_log, if_neg (by omega)]
  · rw [Signed.signs_log, if_pos h]
  · have ha : Accepts env [] := ⟨(fun _ h => nomatch h), (fun _ h => nomatch h), (fun _ h => nomatch h), (fun _ h => nomatch h),
      (fun _ h => nomatch h), (fun _ h => nomatch h), (fun _ h => nomatch h), (fun _ h => nomatch h)⟩
    obtain ⟨g, r, hd⟩ := (C103_function_arguments env w.reg false [] [] f).1 ha
    exact ⟨g, r, hd, by simp only [Signed.decorate, hd]⟩
  · induction n with
    | zero => exact absurd h (by omega)
    | succ n ih =>
      rw [Signed.signs]
      cases n with
      | zero => rfl
      | succ n => rw [ih (by omega)]
  · induction n with
    | zero => exact absurd h (by omega)
    | succ n ih =>
      rw [Signed.signs]
      cases n with
      | zero => rfl
      | succ n => rw [ih (by omega)]

/-- `@(-log)`, `@(- -log)` and `@(- - -log)`. -/
example : Signed.signs 1 .log = .ok .unlog ∧ Signed.signs 2 .log = .ok .log ∧ Signed.signs 3 .log = .ok .unlog := ⟨rfl, rfl, rfl⟩

end Polog
