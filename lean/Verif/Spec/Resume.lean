import Verif.Model.Sessions

/-! What a caller who carries on after failed calls has in the end. -/

namespace AsyncZip.Spec

/-- The bytes the caller holds after the calls, in order: those returned and those a failed `read_to_end` left behind. -/
def handed : List Seen → List UInt8
  | [] => []
  | .bytes b :: l => b ++ handed l
  | .cut b _ :: l => b ++ handed l
  | _ :: l => handed l

/-- The call opens an entry. -/
def opens : Call → Bool
  | .open _ => true
  | _ => false

/-- How often the source will answer. -/
def answers : List RdResp → Nat
  | [] => 0
  | .chunk _ :: l => answers l + 1
  | _ :: l => answers l

/-- How often the source will report an error. -/
def faults : List RdResp → Nat
  | [] => 0
  | .error _ :: l => faults l + 1
  | _ :: l => faults l

end AsyncZip.Spec
