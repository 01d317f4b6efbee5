import Verif.Singleton.Model

/-! Where a call of the constructor of a singleton is (C48). -/

namespace Polog

/-- The call is inside the original constructor. -/
def NewPc.inside : NewPc → Bool
  | .original => true
  | .locked => true
  | .created _ => true
  | .assigned => true
  | .replaced => true
  | .leaving _ => true
  | _ => false

/-- The call holds the lock. -/
def NewPc.holds : NewPc → Bool
  | .original => false
  | p => p.inside

/-- The object is constructed and no call is inside the original constructor. -/
def Settled (s : NewState) : Prop := s.quickNew = true ∧ ∀ c, (s.pc c).inside = false

end Polog
