import Verif.Arr

/-!
Model of /repo/test/external/cnpy (cnpy.h, cnpy.cpp), which the native unit tests use to read the `.npy` files written by Python, and of its archives.
A file is the list of its bytes, a byte a character with a code below 256; elements of arrays are their bytes.  `none` is an exception, a failed `assert`
or undefined behaviour.  Simplifications: the machine is little-endian, files can be opened and written, `size_t` does not overflow; `atoi` reads leading
digits only (what follows the type letter); compressed archive members count as errors (`npz_save` writes none); `crc32` of zlib is a parameter.
-/

namespace Verif.Model
open Verif

/-- The two bytes of a `uint16_t`. -/
def le16 (x : ℕ) : List Char := [Char.ofNat (x % 256), Char.ofNat (x / 256 % 256)]

/-- The four bytes of a `uint32_t`. -/
def le32 (x : ℕ) : List Char := [Char.ofNat (x % 256), Char.ofNat (x / 256 % 256), Char.ofNat (x / 65536 % 256), Char.ofNat (x / 16777216 % 256)]

/-- cnpy.h:243-248: the text of the shape, without the parentheses. -/
def shapeText : List ℕ → List Char
  | [] => []
  | [a] => Nat.toDigits 10 a ++ [',']
  | a :: l => Nat.toDigits 10 a ++ l.flatMap (fun d => [',', ' '] ++ Nat.toDigits 10 d)

/-- cnpy.h:237-249: the text in braces; `ty` is the result of `map_type`, `ws` the size of an element. -/
def npyDict (ty : Char) (ws : ℕ) (shape : List ℕ) : List Char :=
  "{'descr': '<".toList ++ ([ty] ++ (Nat.toDigits 10 ws ++ ("', 'fortran_order': False, 'shape': (".toList ++ (shapeText shape ++ "), }".toList))))

/-- cnpy.h:234-264 `create_npy_header`.  `shape[0]` does not exist for an empty shape. -/
def createNpyHeader (ty : Char) (ws : ℕ) (shape : List ℕ) : Option (List Char) :=
  if shape = [] then none
  else
    let dict := npyDict ty ws shape
    let remainder := 16 - (10 + dict.length) % 16
    let dict := dict ++ (List.replicate (remainder - 1) ' ' ++ ['\n'])
    some ([Char.ofNat 147] ++ ("NUMPY".toList ++ ([Char.ofNat 1, Char.ofNat 0] ++ (le16 dict.length ++ dict))))

/-- cnpy.h:124, 167: `std::accumulate` starts with the `int` 1, so every product is converted to `int`. -/
def npyCount (shape : List ℕ) : ℤ := shape.foldl (fun (acc : ℤ) (d : ℕ) => Int.bmod (acc * (d : ℤ)) 4294967296) 1

/-- `fwrite(data,sizeof(T),nels,fp)`: the bytes written; the array must have them. -/
def npyBytes (ws : ℕ) (shape : List ℕ) (data : List Char) : Option (List Char) :=
  let nels := npyCount shape
  if 0 ≤ nels ∧ nels.toNat * ws ≤ data.length then some (data.take (nels.toNat * ws)) else none

/-- What is known after reading a header. -/
structure NpyHeader where
  wordSize : ℕ
  shape : List ℕ
  fortran : Bool
  deriving DecidableEq

/-- cnpy.h:24-61 `NpyArray`. -/
structure NpyArray where
  shape : List ℕ
  wordSize : ℕ
  fortran : Bool
  bytes : List Char
  deriving DecidableEq

/-- `fgets(buffer,k+1,fp)`: at most `k` bytes, up to the first line feed. -/
def fgetsLine : ℕ → List Char → List Char
  | 0, _ => []
  | _, [] => []
  | k + 1, c :: s => if c = '\n' then [c] else c :: fgetsLine k s

/-- `std::string::find`. -/
def findSub (pat : List Char) : List Char → Option ℕ
  | [] => if pat = [] then some 0 else none
  | c :: s => if pat.isPrefixOf (c :: s) then some 0 else (findSub pat s).map (· + 1)

/-- cnpy.cpp:127-135: the matches of `[0-9][0-9]*` from left to right; `cur` are the digits of the current match. -/
def digitRuns : List Char → List Char → List (List Char)
  | cur, [] => if cur = [] then [] else [cur]
  | cur, c :: s => if c.isDigit then digitRuns (cur ++ [c]) s else if cur = [] then digitRuns [] s else cur :: digitRuns [] s

/-- cnpy.cpp:133 `std::stoi`: throws above the largest `int`. -/
def stoi (w : List Char) : Option ℕ := if Nat.ofDigitChars 10 w 0 ≤ 2147483647 then some (Nat.ofDigitChars 10 w 0) else none

/-- cnpy.cpp:112-152: the part of `parse_npy_header` that interprets the line. -/
def parseNpyLine (header : List Char) : Option NpyHeader := do
  let loc ← findSub "fortran_order".toList header
  if header.length < loc + 16 then none
  let fortran := (header.drop (loc + 16)).take 4 == "True".toList
  let loc1 ← findSub ['('] header
  let loc2 ← findSub [')'] header
  let str := if loc1 < loc2 then (header.drop (loc1 + 1)).take (loc2 - loc1 - 1) else header.drop (loc1 + 1)
  let shape ← (digitRuns [] str).mapM stoi
  let loc ← findSub "descr".toList header
  let order ← header[loc + 9]?
  if order ≠ '<' ∧ order ≠ '|' then none
  if header.length < loc + 11 then none
  let ws := (header.drop (loc + 11)).take ((findSub ['\''] (header.drop (loc + 11))).getD header.length)
  some ⟨Nat.ofDigitChars 10 (ws.takeWhile Char.isDigit) 0, shape, fortran⟩

/-- cnpy.cpp:104-153 `parse_npy_header(FILE*)`; also returns the bytes after the header.  A string made from a `char*` ends at the first zero byte. -/
def parseNpyHeader (file : List Char) : Option (NpyHeader × List Char) := do
  if file.length < 11 then none
  let line := fgetsLine 255 (file.drop 11)
  let header := line.takeWhile (· != Char.ofNat 0)
  if header.getLast? ≠ some '\n' then none
  let h ← parseNpyLine header
  some (h, (file.drop 11).drop line.length)

/-- cnpy.cpp:178-189 `load_the_npy_file`, cnpy.h:25-32: the array and the bytes after it.  `&(*data_holder)[0]` does not exist for an empty array. -/
def loadNpy (file : List Char) : Option (NpyArray × List Char) := do
  let (h, rest) ← parseNpyHeader file
  let n := h.shape.prod * h.wordSize
  if n = 0 then none
  if rest.length < n then none
  some (⟨h.shape, h.wordSize, h.fortran, rest.take n⟩, rest.drop n)

/-- cnpy.cpp:327-337 `npy_load`. -/
def npyLoad (file : List Char) : Option NpyArray := (loadNpy file).map Prod.fst

/-- cnpy.h:88-131 `npy_save`, mode "w", or mode "a" without a file. -/
def npySave (ty : Char) (ws : ℕ) (shape : List ℕ) (data : List Char) : Option (List Char) := do
  let header ← createNpyHeader ty ws shape
  let bytes ← npyBytes ws shape data
  some (header ++ bytes)

/-- cnpy.h:110-115: the lengths in the other dimensions are compared; `true_data_shape[i]` must exist. -/
def sameTail : List ℕ → List ℕ → Option Unit
  | [], _ => some ()
  | _ :: _, [] => none
  | a :: l, b :: m => if a = b then sameTail l m else none

/-- cnpy.h:88-131 `npy_save`, mode "a" with an existing file.  The assertion for different numbers of dimensions (cnpy.h:107) repeats the condition under which
it is reached and never fails.  The new header is written over the beginning of the file. -/
def npyAppend (file : List Char) (ty : Char) (ws : ℕ) (shape : List ℕ) (data : List Char) : Option (List Char) := do
  let (h, _) ← parseNpyHeader file
  if h.fortran then none
  if h.wordSize ≠ ws then none
  sameTail (shape.drop 1) (h.shape.drop 1)
  let first ← h.shape.head?
  let m ← shape.head?
  let header ← createNpyHeader ty ws ((first + m) :: h.shape.drop 1)
  let bytes ← npyBytes ws shape data
  some (header ++ (file.drop header.length ++ bytes))

/-- The first `n` groups of `sz` bytes. -/
def chunks (sz : ℕ) : ℕ → List Char → List (List Char)
  | 0, _ => []
  | n + 1, l => l.take sz :: chunks sz n (l.drop sz)

/-- cnpy.h:46-50 `as_vec<T>()` for a type of size `sz`: `num_vals` elements from the start of the bytes. -/
def asVec (sz : ℕ) (a : NpyArray) : Option (List (List Char)) :=
  if a.shape.prod * sz ≤ a.bytes.length then some (chunks sz a.shape.prod a.bytes) else none

/-- The `uint16_t` at a position. -/
def rd16 (l : List Char) (i : ℕ) : Option ℕ := do
  let a ← l[i]?
  let b ← l[i + 1]?
  some (a.toNat + 256 * b.toNat)

/-- The `uint32_t` at a position. -/
def rd32 (l : List Char) (i : ℕ) : Option ℕ := do
  let a ← rd16 l i
  let b ← rd16 l (i + 2)
  some (a + 65536 * b)

/-- cnpy.h:175-188: the header of an archive member. -/
def localHeader (crc nbytes : ℕ) (name : List Char) : List Char :=
  "PK".toList ++ (le16 1027 ++ (le16 20 ++ (le16 0 ++ (le16 0 ++ (le16 0 ++ (le16 0 ++ (le32 crc ++ (le32 nbytes ++ (le32 nbytes ++
    (le16 name.length ++ (le16 0 ++ name)))))))))))

/-- cnpy.h:190-200: the entry of the directory. -/
def globalEntry (loc : List Char) (offset : ℕ) (name : List Char) : List Char :=
  "PK".toList ++ (le16 513 ++ (le16 20 ++ ((loc.drop 4).take 26 ++ (le16 0 ++ (le16 0 ++ (le16 0 ++ (le32 0 ++ (le32 offset ++ name))))))))

/-- cnpy.h:202-212: the end of the archive. -/
def zipFooter (nrecs globalSize start : ℕ) : List Char :=
  "PK".toList ++ (le16 1541 ++ (le16 0 ++ (le16 0 ++ (le16 (nrecs + 1) ++ (le16 (nrecs + 1) ++ (le32 globalSize ++ (le32 start ++ le16 0)))))))

/-- cnpy.cpp:155-176 `parse_zip_footer`: number of members, size and position of the directory. -/
def parseZipFooter (file : List Char) : Option (ℕ × ℕ × ℕ) := do
  if file.length < 22 then none
  let footer := file.drop (file.length - 22)
  let diskNo ← rd16 footer 4
  let diskStart ← rd16 footer 6
  let onDisk ← rd16 footer 8
  let nrecs ← rd16 footer 10
  let size ← rd32 footer 12
  let offset ← rd32 footer 16
  let comment ← rd16 footer 20
  if diskNo = 0 ∧ diskStart = 0 ∧ onDisk = nrecs ∧ comment = 0 then some (nrecs, size, offset) else none

/-- cnpy.h:133-221 `npz_save`; `old` is the archive in mode "a", `none` if there is none or in mode "w".  What is written replaces the bytes of the file from
the position of the directory on. -/
def npzSave (crc : List Char → ℕ) (old : Option (List Char)) (fname : List Char) (ty : Char) (ws : ℕ) (shape : List ℕ) (data : List Char) :
    Option (List Char) := do
  let name := fname ++ ".npy".toList
  let (nrecs, offset, dir, file) ← match old with
    | none => some (0, 0, [], [])
    | some file => do
      let (nrecs, size, offset) ← parseZipFooter file
      if size = 0 ∨ file.length < offset + size then none
      some (nrecs, offset, (file.drop offset).take size, file)
  let header ← createNpyHeader ty ws shape
  let bytes ← npyBytes ws shape data
  let nbytes := bytes.length + header.length
  let loc := localHeader (crc (header ++ bytes)) nbytes name
  let dir := dir ++ globalEntry loc offset name
  let footer := zipFooter nrecs dir.length (offset + nbytes + loc.length)
  let new := loc ++ (header ++ (bytes ++ (dir ++ footer)))
  some (file.take offset ++ (new ++ file.drop (offset + new.length)))

/-- cnpy.cpp:240-272, 285-303: the header of the next member, or `none` inside at the directory: its name without the last four bytes, the compression method,
the uncompressed size and the bytes after the header. -/
def npzMember (file : List Char) : Option (Option (List Char × ℕ × ℕ × List Char)) := do
  if file.length < 30 then none
  let h := file.take 30
  if h[2]? ≠ some (Char.ofNat 3) ∨ h[3]? ≠ some (Char.ofNat 4) then some none
  else do
    let len ← rd16 h 26
    let extra ← rd16 h 28
    let method ← rd16 h 8
    let size ← rd32 h 22
    let rest := file.drop 30
    if rest.length < len + extra ∨ len < 4 then none
    some (some ((rest.take len).take (len - 4), method, size, rest.drop (len + extra)))

/-- cnpy.cpp:230-277 `npz_load(fname)`: the members in the order of the file (a later one replaces an earlier one of the same name in the map). -/
def npzLoad : ℕ → List Char → Option (List (List Char × NpyArray))
  | 0, _ => none
  | fuel + 1, file => do
    match ← npzMember file with
    | none => some []
    | some (name, method, _, rest) => do
      if method ≠ 0 then none
      let (a, rest) ← loadNpy rest
      let l ← npzLoad fuel rest
      some ((name, a) :: l)

/-- cnpy.cpp:279-325 `npz_load(fname, varname)`.  Seeking past the end of the file is possible; then the next read fails. -/
def npzFind (var : List Char) : ℕ → List Char → Option NpyArray
  | 0, _ => none
  | fuel + 1, file => do
    match ← npzMember file with
    | none => none
    | some (name, method, size, rest) =>
      if name = var then if method ≠ 0 then none else npyLoad rest
      else npzFind var fuel (rest.drop size)

end Verif.Model
