import Verif.Model.Value
/-!
# Reading CBOR (RFC 8949)

A reader for the part of CBOR with definite lengths, written after the RFC and not after
the encoders of the ledger.  It is what the decoders of `ciborium` and `minicbor` do on such
input.  Indefinite lengths and half/single precision floats are not read; UTF-8 is not
checked.
-/
namespace CyclesLedger
namespace Cbor

/-- Value of big-endian bytes (RFC 8949, section 3: network byte order). -/
def beNat (b : Bytes) : Nat := b.foldl (fun acc x => acc * 256 + x.toNat) 0

/-- The first `n` bytes and the rest. -/
def splitBytes (n : Nat) (b : Bytes) : Option (Bytes × Bytes) :=
  if n ≤ b.length then some (b.take n, b.drop n) else none

/-- The head of a data item (RFC 8949, section 3): major type, additional information,
argument, and what follows. -/
def head (b : Bytes) : Option (Nat × Nat × Nat × Bytes) :=
  match b with
  | [] => none
  | x :: rest =>
    let major := x.toNat / 32
    let info := x.toNat % 32
    let len := if info < 24 then some 0
      else if info = 24 then some 1
      else if info = 25 then some 2
      else if info = 26 then some 4
      else if info = 27 then some 8
      else none
    match len with
    | none => none
    | some n =>
      match splitBytes n rest with
      | none => none
      | some (arg, rest) => some (major, info, if info < 24 then info else beNat arg, rest)

mutual
/-- One data item; the first argument bounds the number of steps. -/
def item : Nat → Bytes → Option (CVal × Bytes)
  | 0, _ => none
  | fuel + 1, b =>
    match head b with
    | none => none
    | some (major, info, arg, rest) =>
      if major = 0 then some (.int arg, rest)
      else if major = 1 then some (.int (-1 - arg), rest)
      else if major = 2 then (splitBytes arg rest).map (fun p => (.bytes p.1, p.2))
      else if major = 3 then (splitBytes arg rest).map (fun p => (.text p.1, p.2))
      else if major = 4 then (items fuel arg rest).map (fun p => (.array p.1, p.2))
      else if major = 5 then (pairs fuel arg rest).map (fun p => (.map p.1, p.2))
      else if major = 6 then (item fuel rest).map (fun p => (.tag arg p.1, p.2))
      else if info = 20 then some (.bool false, rest)
      else if info = 21 then some (.bool true, rest)
      else if info = 22 then some (.null, rest)
      else if info = 27 then some (.float (UInt64.ofNat arg), rest)
      else none
  termination_by structural fuel => fuel
/-- `n` data items. -/
def items : Nat → Nat → Bytes → Option (List CVal × Bytes)
  | 0, n, b => if n = 0 then some ([], b) else none
  | fuel + 1, n, b =>
    if n = 0 then some ([], b)
    else
      match item fuel b with
      | none => none
      | some (v, rest) => (items fuel (n - 1) rest).map (fun p => (v :: p.1, p.2))
  termination_by structural fuel => fuel
/-- `n` pairs of data items. -/
def pairs : Nat → Nat → Bytes → Option (List (CVal × CVal) × Bytes)
  | 0, n, b => if n = 0 then some ([], b) else none
  | fuel + 1, n, b =>
    if n = 0 then some ([], b)
    else
      match item fuel b with
      | none => none
      | some (k, rest) =>
        match item fuel rest with
        | none => none
        | some (v, rest) => (pairs fuel (n - 1) rest).map (fun p => ((k, v) :: p.1, p.2))
  termination_by structural fuel => fuel
end

/-- Nothing but one data item.  Every step reads a byte or goes to the next element, so
twice the length bounds the steps. -/
def read (b : Bytes) : Option CVal :=
  match item (2 * b.length) b with
  | some (v, []) => some v
  | _ => none

end Cbor
end CyclesLedger
