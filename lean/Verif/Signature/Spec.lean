import Verif.Signature.Model

/-! Python's rules for function signatures and for binding the arguments of a call. -/

namespace Polog
namespace SigSpec

/-- The place of a kind in a parameter list. -/
def rank : PKind → Nat
  | .positionalOnly => 0
  | .positionalOrKeyword => 1
  | .varPositional => 2
  | .keywordOnly => 3
  | .varKeyword => 4

/-- An argument without a name may be given for the parameter. -/
def isPos (p : Param) : Bool :=
  match p.kind with
  | .positionalOnly | .positionalOrKeyword => true
  | _ => false

/-- An argument with its name may be given for the parameter. -/
def isKey (p : Param) : Bool :=
  match p.kind with
  | .positionalOrKeyword | .keywordOnly => true
  | _ => false

/-- Parameter lists Python accepts: kinds in order, at most one `*args` and one `**kwargs` (without
default), no positional parameter without default after one with a default, distinct names. -/
structure Valid (ps : List Param) : Prop where
  order : ps.Pairwise fun p q => rank p.kind ≤ rank q.kind
  oneStar : ps.Pairwise fun p q => ¬ (p.kind = q.kind ∧ (p.kind = .varPositional ∨ p.kind = .varKeyword))
  starDefault : ∀ p ∈ ps, p.kind = .varPositional ∨ p.kind = .varKeyword → p.hasDefault = false
  defaults : ps.Pairwise fun p q => isPos p → isPos q → p.hasDefault → q.hasDefault
  names : (ps.map Param.name).Nodup

/-- The positional parameters, in order. -/
def positionals (ps : List Param) : List Param := ps.filter isPos

/-- The call `f(a₁, …, aₙ, k₁=…, k₂=…)` binds: no argument is left over and no parameter stays without
a value. -/
structure Binds (ps : List Param) (n : Nat) (kws : List Str) : Prop where
  /-- all positional arguments find a place -/
  room : n ≤ (positionals ps).length ∨ ∃ p ∈ ps, p.kind = .varPositional
  /-- each keyword argument finds a place that is still free -/
  keywords : ∀ k ∈ kws,
    (∃ p ∈ ps, p.kind = .keywordOnly ∧ p.name = k) ∨
    (∃ p ∈ (positionals ps).drop n, p.kind = .positionalOrKeyword ∧ p.name = k) ∨
    ((∃ p ∈ ps, p.kind = .varKeyword) ∧ ∀ p ∈ (positionals ps).take n,
      p.kind = .positionalOrKeyword → p.name ≠ k)
  /-- each positional parameter that got no positional argument has a default or a keyword argument -/
  filled : ∀ p ∈ (positionals ps).drop n,
    p.hasDefault = true ∨ (p.kind = .positionalOrKeyword ∧ p.name ∈ kws)
  /-- each keyword-only parameter has a default or a keyword argument -/
  filledKw : ∀ p ∈ ps, p.kind = .keywordOnly → p.hasDefault = true ∨ p.name ∈ kws

/-- `f(x)` is a correct call. -/
def OneArg (ps : List Param) : Prop := Binds ps 1 []

/-- `f()` is a correct call. -/
def NoArgs (ps : List Param) : Prop := Binds ps 0 []

/-- A plain one-argument function: one positional parameter without default and nothing else. -/
def Plain (ps : List Param) : Prop := ∃ p, ps = [p] ∧ isPos p ∧ p.hasDefault = false

end SigSpec
end Polog

namespace Polog
open SigSpec

/-- A template: any number of dots, names, `*` and `**`, where no name is given twice. -/
structure TemplateOk (isId : Str → Bool) (args : List Str) : Prop where
  /-- the marks are no identifiers -/
  marks : isId ".".toList = false ∧ isId "*".toList = false ∧ isId "**".toList = false
  names : (args.filter isId).Nodup

/-- The function has the shape of the template: as many positional parameters without default as dots,
exactly the named parameters with default that the template names, `*args` and `**kwargs` exactly if the
template has `*` and `**`. -/
structure HasShape (isId : Str → Bool) (args : List Str) (ps : List Param) : Prop where
  dots : (ps.filter fun p => isPos p && !p.hasDefault).length = args.count ".".toList
  named : ∀ name, (isId name = true ∧ name ∈ args) ↔
    ∃ p ∈ ps, p.name = name ∧ isKey p = true ∧ p.hasDefault = true
  star : "*".toList ∈ args ↔ ∃ p ∈ ps, p.kind = .varPositional
  starStar : "**".toList ∈ args ↔ ∃ p ∈ ps, p.kind = .varKeyword

end Polog
