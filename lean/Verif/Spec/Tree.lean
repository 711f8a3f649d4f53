import Verif.Model.Cert
import Verif.Spec.Cbor
/-!
# Reading a hash tree

The format of hash trees in the IC interface specification ("Encoding of certificates"):

    hash-tree = [0] / [1 hash-tree hash-tree] / [2 bytes hash-tree] / [3 bytes] / [4 bytes .size 32]
-/
namespace CyclesLedger

/-- The hash tree a CBOR value stands for. -/
inductive Spec.StandsFor : CVal → HashTree → Prop
  | empty : StandsFor (.array [.int 0]) .empty
  | fork {c d l r} : StandsFor c l → StandsFor d r →
    StandsFor (.array [.int 1, c, d]) (.fork l r)
  | labeled {k c t} : StandsFor c t → StandsFor (.array [.int 2, .bytes k, c]) (.labeled k t)
  | leaf {b} : StandsFor (.array [.int 3, .bytes b]) (.leaf b)
  | pruned {h : Hash} : StandsFor (.array [.int 4, .bytes h.val]) (.pruned h)

/-- A label, written in ASCII. -/
def Spec.label (s : String) : Bytes := s.toList.map (fun c => UInt8.ofNat c.toNat)

/-- The bytes are one CBOR item, which stands for the tree. -/
def Spec.ReadsAs (b : Bytes) (t : HashTree) : Prop := ∃ c, Cbor.read b = some c ∧ Spec.StandsFor c t

end CyclesLedger
