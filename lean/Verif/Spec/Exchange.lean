import Verif.Model.Exchange
/-!
# Exchanging entry readers
-/

namespace AsyncZip.Spec

/-- The call panicked. -/
def BenchPanic (x : BenchSeen) : Prop :=
  match x with
  | .seen s => s.failure = some .panic
  | _ => False

/-- No entry reader borrows its source. -/
def NoneBorrows (w : Bench) : Prop := ∀ k h, (w k).held = some h → h.owned = true

/-- The same step with things in other places. -/
def movedOp (σ : Nat → Nat) : BenchOp → BenchOp
  | .next k => .next (σ k)
  | .call k c => .call (σ k) c
  | .done k => .done (σ k)
  | .skip k => .skip (σ k)
  | .exchange j k => .exchange (σ j) (σ k)

/-- Two places change. -/
def traded (j k v : Nat) : Nat := if v = j then k else if v = k then j else v

/-- The step asks for the next entry. -/
def AsksNext (op : BenchOp) : Prop := ∃ k, op = .next k

/-- The step puts one entry reader in the place of another. -/
def Exchanges (op : BenchOp) : Prop := ∃ j k, op = .exchange j k

end AsyncZip.Spec
