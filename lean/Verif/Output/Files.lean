import Verif.Output.Model
import Verif.Csv.Model
import Verif.Py.Model

/-!
Model of src/CsvOutputter.cpp `writeFieldsToFiles` and src/VtkOutputter.cpp `writeFieldsToFiles`, `writeFieldsToFiles_numpy` as operations on the directory into
which they write.
-/

namespace Blitzdg.Output

open Blitzdg.Sparse (DMat)

variable {α β : Type}

/-- The directory: the contents of the files by name, and the names under which a file can be created or replaced. -/
structure Disk (β : Type) where
  file : Str → Option β
  writable : Str → Bool

/-- Opening a file for writing, writing and closing it (src/CsvOutputter.cpp lines 29-38; `SetFileName` and `Write` of include/VtkOutputter.hpp lines 86-93).  The file is
replaced.  A stream that could not be opened ignores what is written to it, and neither the stream nor the status returned by `Write` is looked at. -/
def saveFile (d : Disk β) (name : Str) (content : β) : Disk β :=
  if d.writable name then { d with file := fun n => if n = name then some content else d.file n } else d

/-- src/CsvOutputter.cpp lines 53-62 and src/VtkOutputter.cpp lines 58-65 `writeFieldsToFiles`; `fields` are the entries of the `std::map` in the order of iteration and `render name f`
is what `writeFieldToFile` writes for the field `f` called `name`. -/
def writeFields (ext : Str) (render : Str → DMat α → β) (d : Disk β) (fields : List (Str × DMat α)) (tstep : Int) : Disk β :=
  fields.foldl (fun d kv => saveFile d (generateFileName ext kv.1 tstep) (render kv.1 kv.2)) d

/-- `CsvOutputter::writeFieldsToFiles` (src/CsvOutputter.cpp lines 53-62): extension ".dat", numbers separated by blanks. -/
def csvWriteFields (fmt : α → Str) (d : Disk Str) (fields : List (Str × DMat α)) (tstep : Int) : Disk Str :=
  writeFields ".dat".toList (fun _ f => Csv.writeField fmt ' ' f.rows f.cols f.at') d fields tstep

/-- `std::vector::at`. -/
def atVec (l : List β) (i : Nat) : Out β :=
  match l[i]? with
  | some x => .ok x
  | none => .throws

/-- Loop body, src/VtkOutputter.cpp lines 89-97, with `writeFieldToFile_numpy` (lines 68-79). -/
def dictStep [Zero α] (ext : Str) (render : Str → DMat α → β) (arrays : List (Py.View α)) (tstep : Int) (s : Disk β × Nat) (name : Str) : Out (Disk β × Nat) := do
  let v ← atVec arrays s.2
  let m ← Py.fromNumpy v
  pure (saveFile s.1 (generateFileName ext name tstep) (render name m), s.2 + 1)

/-- src/VtkOutputter.cpp lines 80-98 `writeFieldsToFiles_numpy`: `names` and `arrays` are `fields.keys()` and `fields.values()`. -/
def writeDict [Zero α] (ext : Str) (render : Str → DMat α → β) (d : Disk β) (names : List Str) (arrays : List (Py.View α)) (tstep : Int) : Out (Disk β) :=
  loopM (dictStep ext render arrays tstep) (d, 0) names >>= fun s => .ok s.1

end Blitzdg.Output
