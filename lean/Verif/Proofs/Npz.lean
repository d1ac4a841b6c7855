import Verif.Proofs.Npy

/-! Lemmas about the archives that cnpy writes and reads. -/

namespace Verif.Proofs
open Verif Model Spec

theorem toNat_byte (x : ℕ) : (Char.ofNat (x % 256)).toNat = x % 256 := by
  have h : (x % 256).isValidChar := Or.inl (by have := Nat.mod_lt x (show 256 > 0 by omega); omega)
  simp [Char.ofNat, h, Char.toNat, Char.ofNatAux]

theorem bytes16 (x : ℕ) : (Char.ofNat (x % 256)).toNat + 256 * (Char.ofNat (x / 256 % 256)).toNat = x % 65536 := by
  rw [toNat_byte, toNat_byte]; omega

theorem bytes32 (x : ℕ) : (Char.ofNat (x % 256)).toNat + 256 * (Char.ofNat (x / 256 % 256)).toNat +
    65536 * ((Char.ofNat (x / 65536 % 256)).toNat + 256 * (Char.ofNat (x / 16777216 % 256)).toNat) = x % 4294967296 := by
  rw [toNat_byte, toNat_byte, toNat_byte, toNat_byte]; omega

theorem zipFooter_length (r s o : ℕ) : (zipFooter r s o).length = 22 := by simp [zipFooter, le16, le32]

theorem localHeader_length (crc nbytes : ℕ) (name : List Char) : (localHeader crc nbytes name).length = 30 + name.length := by
  simp [localHeader, le16, le32]; omega

theorem globalEntry_length {crc nbytes : ℕ} {name : List Char} (offset : ℕ) :
    (globalEntry (localHeader crc nbytes name) offset name).length = 46 + name.length := by
  simp [globalEntry, localHeader, le16, le32]; omega

theorem parseZipFooter_eq {pre : List Char} {r s o : ℕ} (hs : s < 4294967296) (ho : o < 4294967296) :
    parseZipFooter (pre ++ zipFooter r s o) = some ((r + 1) % 65536, s, o) := by
  have hd : (pre ++ zipFooter r s o).drop ((pre ++ zipFooter r s o).length - 22) = zipFooter r s o :=
    List.drop_left' (by rw [List.length_append, zipFooter_length]; omega)
  have h8 : rd16 (zipFooter r s o) 4 = some 0 := by simp [rd16, zipFooter, le16, le32]
  have h9 : rd16 (zipFooter r s o) 6 = some 0 := by simp [rd16, zipFooter, le16, le32]
  have h1 : rd16 (zipFooter r s o) 8 = some ((r + 1) % 65536) := by simp [rd16, zipFooter, le16, le32, bytes16]
  have h2 : rd16 (zipFooter r s o) 10 = some ((r + 1) % 65536) := by simp [rd16, zipFooter, le16, le32, bytes16]
  have h3 : rd32 (zipFooter r s o) 12 = some s := by simp [rd32, rd16, zipFooter, le16, le32, bytes32, Nat.mod_eq_of_lt hs]
  have h4 : rd32 (zipFooter r s o) 16 = some o := by simp [rd32, rd16, zipFooter, le16, le32, bytes32, Nat.mod_eq_of_lt ho]
  have h5 : rd16 (zipFooter r s o) 20 = some 0 := by simp [rd16, zipFooter, le16, le32]
  unfold parseZipFooter
  simp only [hd, h8, h9, h1, h2, h3, h4, h5]
  rw [if_neg (by rw [List.length_append, zipFooter_length]; omega)]
  simp

theorem npzMember_local {crc nbytes : ℕ} {fname rest : List Char} (hn : fname.length + 4 < 65536) (hb : nbytes < 4294967296) :
    npzMember (localHeader crc nbytes (fname ++ ".npy".toList) ++ rest) = some (some (fname, 0, nbytes, rest)) := by
  generalize hN : fname ++ ".npy".toList = N
  have hNl : N.length = fname.length + 4 := by rw [← hN]; simp
  have e : localHeader crc nbytes N = localHeader crc nbytes N := rfl
  obtain ⟨H, hH, hHl⟩ : ∃ H, localHeader crc nbytes N = H ++ N ∧ H.length = 30 := by
    refine ⟨"PK".toList ++ (le16 1027 ++ (le16 20 ++ (le16 0 ++ (le16 0 ++ (le16 0 ++ (le16 0 ++ (le32 crc ++ (le32 nbytes ++ (le32 nbytes ++
      (le16 N.length ++ le16 0)))))))))), ?_, ?_⟩
    · unfold localHeader; simp only [List.append_assoc]
    · simp [le16, le32]
  have ht : (localHeader crc nbytes N ++ rest).take 30 = H := by rw [hH, List.append_assoc, List.take_left' hHl]
  have hd : (localHeader crc nbytes N ++ rest).drop 30 = N ++ rest := by rw [hH, List.append_assoc, List.drop_left' hHl]
  have g : ∀ i < 30, H[i]? = (localHeader crc nbytes N)[i]? := by intro i hi; rw [hH, List.getElem?_append_left (by omega)]
  have h2 : H[2]? = some (Char.ofNat 3) := by rw [g 2 (by omega)]; rfl
  have h3 : H[3]? = some (Char.ofNat 4) := by rw [g 3 (by omega)]; rfl
  have h26 : rd16 H 26 = some N.length := by
    unfold rd16
    rw [g 26 (by omega), g 27 (by omega)]
    simp [localHeader, le16, le32, bytes16]; omega
  have h28 : rd16 H 28 = some 0 := by
    unfold rd16
    rw [g 28 (by omega), g 29 (by omega)]
    simp [localHeader, le16, le32]
  have h8 : rd16 H 8 = some 0 := by
    unfold rd16
    rw [g 8 (by omega), g 9 (by omega)]
    simp [localHeader, le16, le32]
  have h22 : rd32 H 22 = some nbytes := by
    unfold rd32 rd16
    rw [g 22 (by omega), g 23 (by omega), g (22 + 2) (by omega), g (22 + 2 + 1) (by omega)]
    simp [localHeader, le16, le32, bytes32]; omega
  unfold npzMember
  simp only [ht, hd, h2, h3, h26, h28, h8, h22]
  rw [if_neg (by rw [List.length_append, localHeader_length]; omega), if_neg (by simp)]
  simp only [Option.bind_eq_bind, Option.bind_some]
  rw [if_neg (by rw [List.length_append]; omega), List.take_left' rfl, Nat.add_zero, List.drop_left' rfl, ← hN, List.take_left' (by simp)]

theorem npzMember_directory {loc name rest : List Char} {offset : ℕ} (h : 30 ≤ (globalEntry loc offset name ++ rest).length) :
    npzMember (globalEntry loc offset name ++ rest) = some none := by
  have h2 : ((globalEntry loc offset name ++ rest).take 30)[2]? = some (Char.ofNat 1) := by
    rw [List.getElem?_take_of_lt (by omega)]; rfl
  unfold npzMember
  rw [if_neg (by omega)]
  simp only [h2]
  rw [if_pos (.inl (by decide))]

end Verif.Proofs
