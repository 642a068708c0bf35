import Verif.Spec.Visits
import Verif.Proofs.Rd
/-!
# Two ways of reading the same thing
-/

namespace AsyncZip.Spec
open Rd

/-- Two plans that skip and read the same entries, or as much of them; the buffers may differ in size but are not empty. -/
inductive SameVisit : Visit → Visit → Prop where
  | skip : SameVisit .skip .skip
  | read {k k' : Nat} (h : 0 < k) (h' : 0 < k') : SameVisit (.read k) (.read k')
  | check {k k' : Nat} (h : 0 < k) (h' : 0 < k') : SameVisit (.check k) (.check k')
  | part {n k k' : Nat} (h : 0 < k) (h' : 0 < k') : SameVisit (.part n k) (.part n k')

/-- Two plans that skip and read the same entries. -/
def SamePlan : List Visit → List Visit → Prop := List.Forall₂ SameVisit

/-- Two outcomes that differ at most because the source failed or the future was dropped. -/
def Steady {α : Type} (r r' : Res α) : Prop := Interrupted r ∨ Interrupted r' ∨ r = r'

end AsyncZip.Spec
