import Verif.Model.System
import Verif.Proof.Leb
/-!
# A concrete instance of the abstract primitives, for examples

Every theorem is proved for an arbitrary `Crypto`.  The examples that show that the
hypotheses of the theorems can be met run the model with this instance: a
polynomial checksum in place of SHA-256, and LEB128 for `Int`.
-/
namespace CyclesLedger

namespace Toy

/-- `f` base-256 digits of `n`. -/
def digits : Nat → Nat → Bytes
  | 0, _ => []
  | f + 1, n => UInt8.ofNat (n % 256) :: digits f (n / 256)

theorem digits_length (f n : Nat) : (digits f n).length = f := by
  induction f generalizing n with
  | zero => rfl
  | succ f ih => simp [digits, ih]

/-- The toy instance. -/
@[instance_reducible] def crypto : Crypto where
  digest b := ⟨digits 32 ((b.foldl (fun a x => a * 257 + x.toNat + 1) 7) % (2 ^ 255 - 19)),
    digits_length _ _⟩
  intEnc := leb128
  intEnc_decodes := ofLeb128_leb128

scoped instance : Crypto := crypto

def alice : Principal := ⟨[1], by decide⟩
def bob : Principal := ⟨[2], by decide⟩
def carol : Principal := ⟨[3], by decide⟩
/-- A canister to withdraw to. -/
def target : Principal := ⟨[9, 9], by decide⟩
def acc (p : Principal) : Account := ⟨p, none⟩
def T : Nat := 1000000000
def cfg : Config := { Config.default with initialBalances := none }

/-- Deposit `c` cycles for `p`. -/
def dep (p : Principal) (c : Nat) (h : c < U128MAX + 1 := by decide +kernel) : Event :=
  ⟨1, .deposit p ⟨c, h⟩ ⟨acc p, none⟩⟩
def xfer (p q : Principal) (x : Nat) (cat : Option UInt64 := none) : Event :=
  ⟨1, .transfer p ⟨none, acc q, x, none, none, cat⟩⟩
def appr (p q : Principal) (x : Nat) (exp : Option UInt64 := none) : Event :=
  ⟨1, .approve p ⟨none, acc q, x, none, exp, none, none, none⟩⟩
def xferFrom (sp p q : Principal) (x : Nat) : Event :=
  ⟨1, .transferFrom sp ⟨none, acc p, acc q, x, none, none, none⟩⟩
def wdr (p : Principal) (x : Nat) : Event :=
  ⟨1, .withdraw p ⟨none, target, none, x⟩ none⟩
def wdrFrom (sp p : Principal) (x : Nat) : Event :=
  ⟨1, .withdrawFrom sp ⟨none, acc p, target, none, x⟩ none⟩
def create (p : Principal) (x : Nat) (cat : Option UInt64 := none) : Event :=
  ⟨1, .createCanister p ⟨none, cat, x, none⟩ none⟩

/-- A busy little history. -/
def events : List Event :=
  [ dep alice 1000000000000,
    xfer alice bob 1000 (some 1000000000),
    appr alice bob 900000000,
    xferFrom bob alice carol 5000,
    wdrFrom bob alice 300000000,
    create alice 500000000 (some 1000000001) ]

/-- The system installed at time `T`. -/
def start : Sys := ⟨{ State.empty with config := cfg }, T, [], 0⟩

theorem start_eq : Sys.init cfg T 0 = some start := by
  have : min T U64MAX = T := by decide +kernel
  simp [Sys.init, initLedger, mintInitial, cfg, start, this]

/-- The system after the history. -/
def demo : Sys := start.run events

theorem demo_reachable : Reachable demo := ⟨cfg, T, 0, start, events, start_eq, rfl⟩

theorem run_reachable (es : List Event) : Reachable (start.run es) :=
  ⟨cfg, T, 0, start, es, start_eq, rfl⟩

end Toy
end CyclesLedger
