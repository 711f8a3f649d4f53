import Verif.Spec.Replay
/-!
# Accounts in the specification and in the model
-/
namespace CyclesLedger

@[simp] theorem Spec.idOf_eq (a : Account) : Spec.idOf a = a.key := rfl

end CyclesLedger
