import Verif.Proofs.Npz
import Verif.Spec.Zip

/-! Lemmas for reading the archives of cnpy by their directory. -/

namespace Verif.Proofs
open Verif Model Spec

theorem word_append (a b : List Char) (i k : ℕ) : word (a ++ b) (a.length + i) k = word b i k := by
  induction k generalizing i with
  | zero => rfl
  | succ k ih =>
    rw [word, word, List.getElem?_append_right (by omega), show a.length + i - a.length = i by omega, Nat.add_assoc, ih]

theorem word_of {F a b : List Char} (h : F = a ++ b) {p : ℕ} (i k : ℕ) (hp : p = a.length + i) : word F p k = word b i k := by
  rw [h, hp, word_append]

theorem word4 (x : ℕ) : (Char.ofNat (x % 256)).toNat + 256 * ((Char.ofNat (x / 256 % 256)).toNat +
    256 * ((Char.ofNat (x / 65536 % 256)).toNat + 256 * (Char.ofNat (x / 16777216 % 256)).toNat)) = x % 4294967296 := by
  rw [toNat_byte, toNat_byte, toNat_byte, toNat_byte]; omega

theorem entry_words (crc nbytes offset : ℕ) (name rest : List Char) :
    let E := globalEntry (localHeader crc nbytes name) offset name ++ rest
    word E 0 4 = some 0x02014b50 ∧ word E 10 2 = some 0 ∧ word E 16 4 = some (crc % 4294967296) ∧ word E 20 4 = some (nbytes % 4294967296) ∧
      word E 28 2 = some (name.length % 65536) ∧ word E 30 2 = some 0 ∧ word E 32 2 = some 0 ∧ word E 42 4 = some (offset % 4294967296) := by
  refine ⟨?_, ?_, ?_, ?_, ?_, ?_, ?_, ?_⟩ <;> simp [globalEntry, localHeader, le16, le32, word, word4, bytes16]

theorem local_words (crc nbytes : ℕ) (name rest : List Char) :
    let E := localHeader crc nbytes name ++ rest
    word E 0 4 = some 0x04034b50 ∧ word E 26 2 = some (name.length % 65536) ∧ word E 28 2 = some 0 := by
  refine ⟨?_, ?_, ?_⟩ <;> simp [localHeader, le16, le32, word, bytes16]

theorem footer_words (r s o : ℕ) : word (zipFooter r s o) 0 4 = some 0x06054b50 ∧ word (zipFooter r s o) 10 2 = some ((r + 1) % 65536) ∧
    word (zipFooter r s o) 16 4 = some (o % 4294967296) := by
  refine ⟨?_, ?_, ?_⟩ <;> simp [zipFooter, le16, le32, word, word4, bytes16]

end Verif.Proofs
