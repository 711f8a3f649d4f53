/-!
# Readers for the two pages

JSON (RFC 8259, without white space and fractions, which are never written), and the text format of
Prometheus.  Nothing here refers to the model.
-/
namespace CyclesLedger.Spec

/-- A JSON value. -/
inductive Json where
  | num (n : Nat)
  | str (s : List Char)
  | arr (l : List Json)
  | obj (l : List (List Char × Json))

namespace Json

/-- A hexadecimal digit. -/
def unhex (c : Char) : Option Nat :=
  if '0' ≤ c ∧ c ≤ '9' then some (c.toNat - 48)
  else if 'a' ≤ c ∧ c ≤ 'f' then some (c.toNat - 87)
  else if 'A' ≤ c ∧ c ≤ 'F' then some (c.toNat - 55)
  else none

/-- What may follow a backslash, `u` aside. -/
def unescape (c : Char) : Option Char :=
  if c = '"' then some '"' else if c = '\\' then some '\\' else if c = '/' then some '/'
  else if c = 'b' then some (Char.ofNat 8) else if c = 'f' then some (Char.ofNat 12)
  else if c = 'n' then some (Char.ofNat 10) else if c = 'r' then some (Char.ofNat 13)
  else if c = 't' then some (Char.ofNat 9) else none

/-- The next character of a string, or its end. -/
def char : List Char → Option (Option Char × List Char)
  | [] => none
  | c :: t =>
    if c = '"' then some (none, t)
    else if c = '\\' then
      match t with
      | [] => none
      | x :: t =>
        if x = 'u' then
          match t with
          | a :: b :: d :: e :: t =>
            match unhex a, unhex b, unhex d, unhex e with
            | some a, some b, some d, some e =>
              some (some (Char.ofNat (((a * 16 + b) * 16 + d) * 16 + e)), t)
            | _, _, _, _ => none
          | _ => none
        else
          match unescape x with
          | some x => some (some x, t)
          | none => none
    else if c.toNat < 32 then none
    else some (some c, t)

def chars : Nat → List Char → Option (List Char × List Char)
  | 0, _ => none
  | fuel + 1, t =>
    match char t with
    | some (none, r) => some ([], r)
    | some (some c, r) =>
      match chars fuel r with
      | some (s, r) => some (c :: s, r)
      | none => none
    | none => none

/-- The rest of a string whose quotation mark has been read. -/
def string (t : List Char) : Option (List Char × List Char) := chars t.length t

/-- A number: no digits in front that mean nothing. -/
def number (t : List Char) : Option (Json × List Char) :=
  let ds := t.takeWhile Char.isDigit
  if ds = [] ∨ (ds.head? = some '0' ∧ 1 < ds.length) then none
  else some (.num (ds.foldl (fun n c => 10 * n + (c.toNat - 48)) 0), t.dropWhile Char.isDigit)

mutual
def value : Nat → List Char → Option (Json × List Char)
  | 0, _ => none
  | fuel + 1, t =>
    match t with
    | '"' :: t =>
      match string t with
      | some (s, r) => some (.str s, r)
      | none => none
    | '[' :: ']' :: r => some (.arr [], r)
    | '[' :: t =>
      match elements fuel t with
      | some (l, r) => some (.arr l, r)
      | none => none
    | '{' :: '}' :: r => some (.obj [], r)
    | '{' :: t =>
      match members fuel t with
      | some (l, r) => some (.obj l, r)
      | none => none
    | t => number t
def elements : Nat → List Char → Option (List Json × List Char)
  | 0, _ => none
  | fuel + 1, t =>
    match value fuel t with
    | some (v, ',' :: r) =>
      match elements fuel r with
      | some (l, r) => some (v :: l, r)
      | none => none
    | some (v, ']' :: r) => some ([v], r)
    | _ => none
def members : Nat → List Char → Option (List (List Char × Json) × List Char)
  | 0, _ => none
  | fuel + 1, t =>
    match t with
    | '"' :: t =>
      match string t with
      | some (k, ':' :: r) =>
        match value fuel r with
        | some (v, ',' :: r) =>
          match members fuel r with
          | some (l, r) => some ((k, v) :: l, r)
          | none => none
        | some (v, '}' :: r) => some ([(k, v)], r)
        | _ => none
      | _ => none
    | _ => none
end

/-- A whole text. -/
def read (t : List Char) : Option Json :=
  match value (t.length + 1) t with
  | some (j, []) => some j
  | _ => none

end Json

/-! ## Prometheus -/

/-- The lines of a text, each ended by a line feed. -/
def lines : List Char → List (List Char)
  | [] => []
  | c :: t =>
    if c = '\n' then [] :: lines t
    else match lines t with
      | [] => [[c]]
      | l :: ls => (c :: l) :: ls

/-- The parts of a line between its spaces. -/
def words : List Char → List (List Char)
  | [] => [[]]
  | c :: t =>
    if c = ' ' then [] :: words t
    else match words t with
      | [] => [[c]]
      | l :: ls => (c :: l) :: ls

/-- A whole number. -/
def whole (t : List Char) : Option Nat :=
  if t ≠ [] ∧ t.all Char.isDigit then some (t.foldl (fun n c => 10 * n + (c.toNat - 48)) 0)
  else none

/-- A whole number with or without sign. -/
def integer (t : List Char) : Option Int :=
  if t.head? = some '-' then (whole t.tail).map (fun n : Nat => -(n : Int))
  else (whole t).map (fun n : Nat => (n : Int))

/-- A line of the format that is no comment: name and labels, value, time. -/
def sample (l : List Char) : Option (String × Nat × Int) :=
  match words l with
  | [name, v, t] =>
    match whole v, integer t with
    | some v, some t => some (String.ofList name, v, t)
    | _, _ => none
  | _ => none

/-- All samples of a page, or nothing if it has a line that is neither comment nor sample. -/
def samples (page : List Char) : Option (List (String × Nat × Int)) :=
  ((lines page).filter (fun l => l.head? ≠ some '#')).mapM sample

end CyclesLedger.Spec
