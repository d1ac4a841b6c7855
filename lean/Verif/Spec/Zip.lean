import Mathlib.Data.Nat.Notation

/-!
How a zip archive is read by its directory (section 4.3 of the zip specification, as Python's `zipfile` and hence `numpy.load` do it), for archives without
compression and without a comment at the end.  Independent of the model of cnpy, whose readers do not use the directory.
-/

namespace Verif.Spec

/-- The number stored in `k` bytes at position `p`, lowest byte first. -/
def word (file : List Char) : ℕ → ℕ → Option ℕ
  | _, 0 => some 0
  | p, k + 1 => do
    let a ← file[p]?
    let b ← word file (p + 1) k
    some (a.toNat + 256 * b)

/-- The member whose directory entry is at position `p` (name, checksum, bytes), and the position of the next entry. -/
def zipEntry (file : List Char) (p : ℕ) : Option ((List Char × ℕ × List Char) × ℕ) := do
  let signature ← word file p 4
  let method ← word file (p + 10) 2
  let crc ← word file (p + 16) 4
  let size ← word file (p + 20) 4
  let nameLen ← word file (p + 28) 2
  let extraLen ← word file (p + 30) 2
  let commentLen ← word file (p + 32) 2
  let start ← word file (p + 42) 4
  let name := (file.drop (p + 46)).take nameLen
  let signature' ← word file start 4
  let nameLen' ← word file (start + 26) 2
  let extraLen' ← word file (start + 28) 2
  let data := (file.drop (start + 30 + nameLen' + extraLen')).take size
  if signature = 0x02014b50 ∧ signature' = 0x04034b50 ∧ method = 0 ∧ name.length = nameLen ∧ data.length = size then
    some ((name, crc, data), p + 46 + nameLen + extraLen + commentLen)
  else none

/-- So many entries from a position on. -/
def zipList (file : List Char) : ℕ → ℕ → Option (List (List Char × ℕ × List Char))
  | 0, _ => some []
  | n + 1, p => do
    let (e, q) ← zipEntry file p
    let l ← zipList file n q
    some (e :: l)

/-- All members that the directory lists. -/
def zipRead (file : List Char) : Option (List (List Char × ℕ × List Char)) := do
  let signature ← word file (file.length - 22) 4
  let n ← word file (file.length - 22 + 10) 2
  let start ← word file (file.length - 22 + 16) 4
  if signature = 0x06054b50 then zipList file n start else none

end Verif.Spec
