import Mathlib.Data.List.Basic
import Mathlib.Logic.Function.Basic

/-!
Files and folders (`tools/os_.py`).

A path is the list of its names; what is at a path is nothing, a file or a folder. Links, permissions and other processes are not modelled. Each
operation gives what is there afterwards and whether it ended without an error. `master`: whether the rank is the master rank.
-/

namespace Phyem.Folder

inductive Kind where
  | file
  | folder
  deriving DecidableEq

abbrev Path := List String

abbrev FS := Path → Option Kind

/-- `os.remove(file_name)`: an error is raised for what is not a file. -/
def unlink (fs : FS) (p : Path) : Option FS := if fs p = some .file then some (Function.update fs p none) else none

/-- The loops over files (`os_.py:42-43`, `79-80`): an error ends them. -/
def unlinks : FS → List Path → FS × Bool
  | fs, [] => (fs, true)
  | fs, p :: ps => match unlink fs p with
    | none => (fs, false)
    | some fs' => unlinks fs' ps

/-- `remove(*file_names)` (`os_.py:38-45`). -/
def remove (master : Bool) (fs : FS) (ps : List Path) : FS × Bool := if master then unlinks fs ps else (fs, true)

/-- `empty_dir(folder_name)` (`os_.py:71-82`). `names`: what `os.listdir` gives, in any order. -/
def emptyDir (master : Bool) (fs : FS) (p : Path) (names : List String) : FS × Bool :=
  if master then (if fs p = some .folder then unlinks fs (names.map fun n => p ++ [n]) else (fs, false)) else (fs, true)

/-- `os.mkdir(folder_name)`: nothing is there yet, and it is in a folder. -/
def osMkdir (fs : FS) (p : Path) : Option FS :=
  if p ≠ [] ∧ fs p = none ∧ fs p.dropLast = some .folder then some (Function.update fs p (some .folder)) else none

/-- `mkdir(folder_name)` (`os_.py:27-35`). -/
def mkdir (master : Bool) (fs : FS) (p : Path) : FS × Bool :=
  if master then (if fs p = some .folder then (fs, true) else match osMkdir fs p with
    | none => (fs, false)
    | some fs' => (fs', true)) else (fs, true)

open Classical in
/-- `os.rmdir(folder_name)`: a folder with nothing in it. -/
noncomputable def osRmdir (fs : FS) (p : Path) : Option FS :=
  if p ≠ [] ∧ fs p = some .folder ∧ ∀ n, fs (p ++ [n]) = none then some (Function.update fs p none) else none

/-- The loop over folders (`os_.py:50-51`). -/
noncomputable def rmdirs : FS → List Path → FS × Bool
  | fs, [] => (fs, true)
  | fs, p :: ps => match osRmdir fs p with
    | none => (fs, false)
    | some fs' => rmdirs fs' ps

/-- `rmdir(*folder_names)` (`os_.py:48-53`). -/
noncomputable def rmdir (master : Bool) (fs : FS) (ps : List Path) : FS × Bool := if master then rmdirs fs ps else (fs, true)

end Phyem.Folder
