import Verif.Properties.Npy

/-!
C103: the archives (`.npz`) that cnpy writes and reads.
-/

namespace Verif.Properties
open Verif Model Spec Proofs

/-- Arrays saved one after the other in an archive below 4 GB are all read back, in the order in which they were saved, whatever the checksums are. -/
theorem C103_load (crc : List Char → ℕ) (l : List Saved) (hne : l ≠ []) (hg : ∀ i ∈ l, i.Good) (hsz : Saved.room l < 2 ^ 32) :
    ∃ file, saveAll crc none l = some (some file) ∧ ∀ fuel > l.length, npzLoad fuel file = some (l.map fun i => (i.name, i.array)) := by
  obtain ⟨file, ms, h1, rfl, h3⟩ := save_all (crc := crc) hne hg (by omega)
  obtain ⟨m₀, more, e⟩ := holds_eq h3
  refine ⟨file, h1, fun fuel hf => ?_⟩
  rw [e, npzLoad_archive ms fuel m₀ more h3.2.1 (by simpa using hf)]
  simp

/-- Reading one name gives the array that was saved first under that name, and fails if there is none. -/
theorem C103_find (crc : List Char → ℕ) (l : List Saved) (hne : l ≠ []) (hg : ∀ i ∈ l, i.Good) (hsz : Saved.room l < 2 ^ 32) (var : List Char) :
    ∃ file, saveAll crc none l = some (some file) ∧ ∀ fuel > l.length, npzFind var fuel file = (l.find? fun i => i.name = var).map Saved.array := by
  obtain ⟨file, ms, h1, rfl, h3⟩ := save_all (crc := crc) hne hg (by omega)
  obtain ⟨m₀, more, e⟩ := holds_eq h3
  refine ⟨file, h1, fun fuel hf => ?_⟩
  rw [e, npzFind_archive var ms fuel m₀ more h3.2.1 (by simpa using hf), List.find?_map]
  simp [Function.comp_def]

/-- The directory is right too: a reader that uses it, as Python's does, finds the files that `npy_save` would write, with their names and checksums. -/
theorem C103_directory (crc : List Char → ℕ) (l : List Saved) (hne : l ≠ []) (hg : ∀ i ∈ l, i.Good) (hsz : Saved.room l + 22 < 2 ^ 32) (hn : l.length < 2 ^ 16) :
    ∃ file, saveAll crc none l = some (some file) ∧
      List.Forall₂ (fun i e => ∃ bytes, npySave i.ty i.ws i.shape i.data = some bytes ∧ e = (i.name ++ ".npy".toList, crc bytes % 2 ^ 32, bytes)) l
        ((zipRead file).getD []) := by
  obtain ⟨file, ms, h1, rfl, h3⟩ := save_all (crc := crc) hne hg (by omega)
  refine ⟨file, h1, ?_⟩
  have := fits_length h3.2.1
  rw [zipRead_holds h3 (by simpa using hn) (by omega), Option.getD_some, List.forall₂_map_left_iff, List.forall₂_map_right_iff, List.forall₂_same]
  intro m hm
  obtain ⟨hgood, -, -, -, hh⟩ := h3.2.1 m hm
  refine ⟨m.header ++ m.item.data, ?_, rfl⟩
  obtain ⟨header, e1, -, e2⟩ := good_header hgood
  unfold npySave
  rw [hh, e2]
  rfl

/-- The calls of example1.cpp:36-41 with an array of 1 × 1 × 2 complex numbers. -/
def exampleCalls : List Saved := [⟨"myVar1".toList, 'f', 8, [1], List.replicate 8 'x'⟩, ⟨"myVar2".toList, 'i', 1, [1], ['a']⟩,
  ⟨"arr1".toList, 'c', 16, [1, 1, 2], List.replicate 32 'y'⟩]

example : ∃ file, saveAll (fun _ => 7) none exampleCalls = some (some file) ∧ ∀ fuel > 3, npzLoad fuel file =
    some [("myVar1".toList, ⟨[1], 8, false, List.replicate 8 'x'⟩), ("myVar2".toList, ⟨[1], 1, false, ['a']⟩), ("arr1".toList, ⟨[1, 1, 2], 16, false, List.replicate 32 'y'⟩)] :=
  C103_load _ exampleCalls (by simp [exampleCalls]) (by decide +kernel) (by decide +kernel)

example : ∃ file, saveAll (fun _ => 7) none exampleCalls = some (some file) ∧ ∀ fuel > 3, npzFind "arr1".toList fuel file =
    some ⟨[1, 1, 2], 16, false, List.replicate 32 'y'⟩ :=
  C103_find _ exampleCalls (by simp [exampleCalls]) (by decide +kernel) (by decide +kernel) _

example : ∃ file, saveAll (fun b => b.length) none exampleCalls = some (some file) ∧
    List.Forall₂ (fun i e => ∃ bytes, npySave i.ty i.ws i.shape i.data = some bytes ∧ e = (i.name ++ ".npy".toList, bytes.length % 2 ^ 32, bytes)) exampleCalls
      ((zipRead file).getD []) :=
  C103_directory _ exampleCalls (by simp [exampleCalls]) (by decide +kernel) (by decide +kernel) (by decide)

/-- The entry of a `std::map` to which these pairs are assigned in this order. -/
def assigned (l : List (List Char × NpyArray)) (var : List Char) : Option NpyArray := (l.reverse.find? fun p => p.1 = var).map Prod.snd

/-- What one would like: reading one name gives what reading everything gives under that name. -/
def C103_same_claim : Prop := ∀ (crc : List Char → ℕ) (l : List Saved), l ≠ [] → (∀ i ∈ l, i.Good) → Saved.room l < 2 ^ 32 → ∀ var,
  ∃ file, saveAll crc none l = some (some file) ∧ ∀ fuel > l.length, (npzLoad fuel file).bind (fun a => assigned a var) = npzFind var fuel file

/-- If a name is saved twice, one reader gives the second array and the other the first. -/
theorem C103_same_claim_false : ¬ C103_same_claim := by
  intro h
  let l : List Saved := [⟨['v'], 'i', 1, [1], ['a']⟩, ⟨['v'], 'i', 1, [1], ['b']⟩]
  have hg : ∀ i ∈ l, i.Good := by decide +kernel
  have hr : Saved.room l < 2 ^ 32 := by decide +kernel
  obtain ⟨f1, e1, h1⟩ := h (fun _ => 0) l (by simp [l]) hg hr ['v']
  obtain ⟨f2, e2, h2⟩ := C103_load (fun _ => 0) l (by simp [l]) hg hr
  obtain ⟨f3, e3, h3⟩ := C103_find (fun _ => 0) l (by simp [l]) hg hr ['v']
  rw [e1] at e2 e3
  simp only [Option.some.injEq] at e2 e3
  subst e2 e3
  have := h1 3 (by simp [l])
  rw [h2 3 (by simp [l]), h3 3 (by simp [l])] at this
  exact absurd this (by decide +kernel)

/-- With different names both readers agree. -/
theorem C103_same_partial (crc : List Char → ℕ) (l : List Saved) (hne : l ≠ []) (hg : ∀ i ∈ l, i.Good) (hsz : Saved.room l < 2 ^ 32)
    (hnames : (l.map Saved.name).Nodup) (var : List Char) :
    ∃ file, saveAll crc none l = some (some file) ∧ ∀ fuel > l.length, (npzLoad fuel file).bind (fun a => assigned a var) = npzFind var fuel file := by
  obtain ⟨f2, e2, h2⟩ := C103_load crc l hne hg hsz
  obtain ⟨f3, e3, h3⟩ := C103_find crc l hne hg hsz var
  rw [e2] at e3
  simp only [Option.some.injEq] at e3
  subst e3
  refine ⟨f2, e2, fun fuel hf => ?_⟩
  rw [h2 fuel hf, h3 fuel hf, Option.bind_some, assigned, ← List.map_reverse, List.find?_map, ← find_reverse hnames]
  simp [Function.comp_def]

example : ∃ file, saveAll (fun _ => 7) none exampleCalls = some (some file) ∧ ∀ fuel > 3,
    (npzLoad fuel file).bind (fun a => assigned a "arr1".toList) = npzFind "arr1".toList fuel file :=
  C103_same_partial _ exampleCalls (by simp [exampleCalls]) (by decide +kernel) (by decide +kernel) (by decide +kernel) _

/-- example1.cpp: the array of 32 × 64 × 128 complex numbers is read back from the file, also after it was appended to itself, and so are all variables of the
archive. -/
theorem C103_example (crc : List Char → ℕ) (data var1 : List Char) (var2 : Char) (hd : data.length = 32 * 64 * 128 * 16) (h1 : var1.length = 8) :
    (npySave 'c' 16 [32, 64, 128] data).bind npyLoad = some ⟨[32, 64, 128], 16, false, data⟩ ∧
    ((npySave 'c' 16 [32, 64, 128] data).bind fun file => (npyAppend file 'c' 16 [32, 64, 128] data).bind npyLoad) = some ⟨[64, 64, 128], 16, false, data ++ data⟩ ∧
    ∃ file, saveAll crc none [⟨"myVar1".toList, 'f', 8, [1], var1⟩, ⟨"myVar2".toList, 'i', 1, [1], [var2]⟩, ⟨"arr1".toList, 'c', 16, [32, 64, 128], data⟩] =
        some (some file) ∧
      ∀ fuel > 3, npzFind "arr1".toList fuel file = some ⟨[32, 64, 128], 16, false, data⟩ ∧
        (npzLoad fuel file).bind (fun a => assigned a "myVar1".toList) = some ⟨[1], 8, false, var1⟩ := by
  refine ⟨C102_dimensions _ _ _ _ (by decide) (by decide) (by decide) (by decide) (by simpa using hd) (by decide) (by decide), ?_, ?_⟩
  · exact C102_append_partial 'c' 16 32 32 [64, 128] data data (by decide) (by decide) (by decide) (by decide) (by decide) (by simpa using hd) (by decide)
      (by simpa using hd) (by decide +kernel)
  · have hg : ∀ i ∈ [(⟨"myVar1".toList, 'f', 8, [1], var1⟩ : Saved), ⟨"myVar2".toList, 'i', 1, [1], [var2]⟩, ⟨"arr1".toList, 'c', 16, [32, 64, 128], data⟩], i.Good := by
      intro i hi
      simp only [List.mem_cons, List.not_mem_nil, or_false] at hi
      rcases hi with rfl | rfl | rfl
      · exact good_of (by decide +kernel) (by simpa using h1)
      · exact good_of (by decide +kernel) rfl
      · exact good_of (by decide +kernel) (by simpa using hd)
    have hsz : Saved.room [(⟨"myVar1".toList, 'f', 8, [1], var1⟩ : Saved), ⟨"myVar2".toList, 'i', 1, [1], [var2]⟩, ⟨"arr1".toList, 'c', 16, [32, 64, 128], data⟩] < 2 ^ 32 := by
      simp [Saved.room, h1, hd]
    obtain ⟨f, e, h⟩ := C103_find crc _ (by simp) hg hsz "arr1".toList
    obtain ⟨f2, e2, h2⟩ := C103_load crc _ (by simp) hg hsz
    rw [e] at e2
    simp only [Option.some.injEq] at e2
    subst e2
    refine ⟨f, e, fun fuel hf => ⟨?_, ?_⟩⟩
    · rw [h fuel (by simpa using hf)]; rfl
    · rw [h2 fuel (by simpa using hf)]; rfl

end Verif.Properties
