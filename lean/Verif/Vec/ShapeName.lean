import Mathlib.Data.List.Basic
import Mathlib.Data.List.Infix
import Mathlib.Tactic.Common

/-!
Under which path a shapefile is written and read (karta/vector/_shp.py 182-193, 358-375,
karta/vector/read.py 153-173).  What the driver stores is a parameter; here only the names count.
-/

namespace Karta.Vec.ShapeName

/-- A file name. -/
abbrev Name := List Char

/-- The extension `.shp`. -/
def ext : Name := ['.', 's', 'h', 'p']

/-- What is found on the disk under a path handed to the OGR driver (read.py 170, `driver.Open`);
nothing, or the contents `α` of a shapefile.  Simplified: the driver finds exactly what it created
under the same path, and files change in no other way. -/
abbrev Disk (α : Type) := Name → Option α

/-- `get_filenames` (read.py 153-166), the entry `"shp"`, with `check=False` as
`ogr_read_shapefile` calls it. -/
def shpName (stem : Name) : Name :=
  let stem := if ext.isSuffixOf stem then stem.take (stem.length - 4) else stem
  stem ++ ext

/-- `ogr_write` (_shp.py 182-193): an existing file of the name is deleted and the data source
created under the name as it is given.  Everything about the contents is left out. -/
def ogrWrite {α : Type} (d : Disk α) (fnm : Name) (g : α) : Disk α :=
  fun p => if p = fnm then some g else d p

/-- `write_shapefile` (_shp.py 360-361). -/
def writeShapefile {α : Type} (d : Disk α) (fnm : Name) (g : α) : Disk α := ogrWrite d fnm g

/-- `ShapefileOutMixin.to_shapefile` (_shp.py 368-373). -/
def toShapefile {α : Type} (d : Disk α) (fnm : Name) (g : α) : Disk α :=
  let fnm := if ext.isSuffixOf fnm then fnm else fnm ++ ext
  ogrWrite d fnm g

/-- `ogr_read_shapefile` (read.py 168-172): what the driver opens. -/
def readShapefile {α : Type} (d : Disk α) (stem : Name) : Option α := d (shpName stem)

/-! ### Specification -/

/-- Two names are meant for the same shapefile: they differ at most by a last `.shp`. -/
def SameFile (m n : Name) : Prop := m = n ∨ m = n ++ ['.', 's', 'h', 'p'] ∨ n = m ++ ['.', 's', 'h', 'p']

/-! ### Properties -/

theorem ends_iff (n : Name) : ext.isSuffixOf n = true ↔ ∃ s, n = s ++ ext := by
  rw [List.isSuffixOf_iff_suffix]
  constructor
  · rintro ⟨s, h⟩; exact ⟨s, h.symm⟩
  · rintro ⟨s, h⟩; exact ⟨s, h.symm⟩

theorem shpName_ends (s : Name) : shpName (s ++ ext) = s ++ ext := by
  have h : ext.isSuffixOf (s ++ ext) = true := (ends_iff _).2 ⟨s, rfl⟩
  simp [shpName, h, ext]

theorem shpName_plain (n : Name) (h : ¬ ext.isSuffixOf n = true) : shpName n = n ++ ext := by
  simp [shpName, h]

/-- `to_shapefile` writes to the path that `read_shapefile` opens. -/
theorem to_path (n : Name) : (if ext.isSuffixOf n then n else n ++ ext) = shpName n := by
  by_cases h : ext.isSuffixOf n = true
  · obtain ⟨s, rfl⟩ := (ends_iff n).1 h
    rw [if_pos h, shpName_ends]
  · rw [if_neg h, shpName_plain n h]

theorem shpName_eq_iff (m n : Name) : shpName m = shpName n → SameFile m n := by
  intro h
  by_cases hm : ext.isSuffixOf m = true <;> by_cases hn : ext.isSuffixOf n = true
  · obtain ⟨s, rfl⟩ := (ends_iff m).1 hm
    obtain ⟨t, rfl⟩ := (ends_iff n).1 hn
    rw [shpName_ends, shpName_ends] at h
    exact Or.inl h
  · obtain ⟨s, rfl⟩ := (ends_iff m).1 hm
    rw [shpName_ends, shpName_plain n hn] at h
    exact Or.inr (Or.inl h)
  · obtain ⟨t, rfl⟩ := (ends_iff n).1 hn
    rw [shpName_ends, shpName_plain m hm] at h
    exact Or.inr (Or.inr h.symm)
  · rw [shpName_plain m hm, shpName_plain n hn] at h
    exact Or.inl (List.append_cancel_right h)

/-- C185: what `to_shapefile(name)` wrote is what `read_shapefile(name)` reads, for every name,
with or without the extension, whatever was there before. -/
theorem C185_read_what_was_saved {α : Type} (d : Disk α) (n : Name) (g : α) :
    readShapefile (toShapefile d n g) n = some g := by
  simp only [readShapefile, toShapefile, ogrWrite, to_path, if_true]

/-- C185: a name without the extension and the same name with it are one file for both reading
and saving. -/
theorem C185_extension_optional {α : Type} (d : Disk α) (n : Name) (g : α)
    (hn : ¬ ∃ s, n = s ++ ['.', 's', 'h', 'p']) :
    readShapefile d (n ++ ['.', 's', 'h', 'p']) = readShapefile d n ∧
    toShapefile d (n ++ ['.', 's', 'h', 'p']) g = toShapefile d n g := by
  have h : ¬ ext.isSuffixOf n = true := fun h => hn ((ends_iff n).1 h)
  have e : shpName (n ++ ext) = shpName n := by rw [shpName_ends, shpName_plain n h]
  refine ⟨?_, ?_⟩
  · show d (shpName (n ++ ext)) = d (shpName n)
    rw [e]
  · show ogrWrite d (if ext.isSuffixOf (n ++ ext) then n ++ ext else (n ++ ext) ++ ext) g =
      ogrWrite d (if ext.isSuffixOf n then n else n ++ ext) g
    rw [to_path, to_path, e]

/-- C185: saving under one name changes nothing that is read under a name meant for another
file. -/
theorem C185_other_files_untouched {α : Type} (d : Disk α) (m n : Name) (g : α)
    (h : ¬ SameFile m n) : readShapefile (toShapefile d n g) m = readShapefile d m := by
  have : shpName m ≠ shpName n := fun e => h (shpName_eq_iff m n e)
  simp only [readShapefile, toShapefile, ogrWrite, to_path, if_neg this]

/-- C185, for `write_shapefile`: names that end in `.shp` are read back.  Missing: the other names,
for which it is false (`C185_violated_plain_name`). -/
theorem C185_write_with_extension_partial {α : Type} (d : Disk α) (s : Name) (g : α) :
    readShapefile (writeShapefile d (s ++ ['.', 's', 'h', 'p']) g) (s ++ ['.', 's', 'h', 'p'])
      = some g := by
  show (if shpName (s ++ ext) = s ++ ext then some g else d (shpName (s ++ ext))) = some g
  rw [if_pos (shpName_ends s)]

/-- C185 fails for `write_shapefile` with every name that does not end in `.shp`: reading the
name afterwards gives what was there before, nothing on an empty disk. -/
theorem C185_violated_plain_name {α : Type} (d : Disk α) (n : Name) (g : α)
    (hn : ¬ ∃ s, n = s ++ ['.', 's', 'h', 'p']) :
    readShapefile (writeShapefile d n g) n = readShapefile d n := by
  have h : ¬ ext.isSuffixOf n = true := fun h => hn ((ends_iff n).1 h)
  have : shpName n ≠ n := by
    rw [shpName_plain n h]
    intro e
    have := congrArg List.length e
    simp [ext] at this
  simp only [readShapefile, writeShapefile, ogrWrite, if_neg this]

/-- Saved as `lake`, read as `lake` and as `lake.shp`; `river` is not there. -/
example : readShapefile (toShapefile (fun _ => none) "lake".toList 7) "lake".toList = some 7 ∧
    readShapefile (toShapefile (fun _ => none) "lake".toList 7) "lake.shp".toList = some 7 ∧
    readShapefile (toShapefile (fun _ => none) "lake".toList 7) "river".toList = none := by
  decide

/-- The hypotheses of `C185_extension_optional`, `C185_violated_plain_name` and
`C185_other_files_untouched` are met. -/
example : (¬ ∃ s : Name, ['l', 'a', 'k', 'e'] = s ++ ['.', 's', 'h', 'p']) ∧
    ¬ SameFile ['r'] ['l', 'a', 'k', 'e'] := by
  constructor
  · rintro ⟨s, h⟩
    have h' := (ends_iff ['l', 'a', 'k', 'e']).2 ⟨s, h⟩
    revert h'; decide
  · unfold SameFile; decide

/-- `write_shapefile("lake", …)` and then `read_shapefile("lake")`: not found. -/
example : readShapefile (writeShapefile (fun _ => none) "lake".toList 7) "lake".toList = none := by
  decide

end Karta.Vec.ShapeName
