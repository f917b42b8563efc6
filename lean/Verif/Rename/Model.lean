import Mathlib.Data.List.Basic
import Mathlib.Data.List.Nodup

/-!
Renaming the files of a folder (`tools/miscellaneous/rename_files_in_folder.py`).

A folder is what is found under each name. It holds files only: folders inside of it are not modelled (`os.rename` of a file onto a folder raises an error).
`os.rename` is that of POSIX: a file that has the new name already is replaced without a word. The folder exists and no one else changes it.
-/

namespace Phyem.Rename

abbrev Name := List Char

/-- What is in the files of a folder, by their names. -/
abbrev Folder (C : Type) := Name → Option C

/-- The characters of the pattern (`rename_files_in_folder.py:7`). -/
def specials : List Char := ['@', '_', '!', '#', '$', '%', '^', '&', '*', '(', ')', '<', '>', '?', '/', '|', '\\', '}', '{', '~', ':']

/-- `contains_special_characters` (`rename_files_in_folder.py:6-8`). -/
def special (s : Name) : Bool := s.any fun c => specials.contains c

/-- `os.path.splitext(filename)[1]` for a name without `/` (`rename_files_in_folder.py:39`): from the last dot on, if something else than dots is
before it. -/
def ext (s : Name) : Name :=
  match s.reverse.dropWhile (· != '.') with
  | [] => []
  | _ :: root => if root.any (· != '.') then '.' :: (s.reverse.takeWhile (· != '.')).reverse else []

/-- Whether the file is renamed (`rename_files_in_folder.py:30-36`, `40`). `none`: no extensions were given. One text counts as a list of one. -/
def chosen (exts : Option (List Name)) (s : Name) : Bool :=
  match exts with
  | none => true
  | some l => l.contains (ext s)

/-- The new name (`rename_files_in_folder.py:41`). -/
def target (pre : Name) (count : ℕ) (s : Name) : Name := pre ++ '_' :: (Nat.toDigits 10 (count + 1) ++ ext s)

variable {C : Type}

/-- `os.rename` (`rename_files_in_folder.py:42-45`). `none`: a `FileNotFoundError`. -/
def move (F : Folder C) (a b : Name) : Option (Folder C) :=
  (F a).map fun c x => if x = b then some c else if x = a then none else F x

/-- The loop over the names that were listed at the beginning (`rename_files_in_folder.py:38-45`), from number `k` on. -/
def loop (pre : Name) (exts : Option (List Name)) : Folder C → ℕ → List Name → Option (Folder C)
  | F, _, [] => some F
  | F, k, s :: L => if chosen exts s then (move F s (target pre k s)).bind fun G => loop pre exts G (k + 1) L else loop pre exts F (k + 1) L

/-- What comes of a call: the prefix is refused, a file is not found, or the folder afterwards. -/
inductive Out (C : Type) where
  | refused
  | missing
  | done (F : Folder C)

/-- `rename_files_in_folder` (`rename_files_in_folder.py:11-45`). `L`: what `os.listdir` gives, which may be in any order. -/
def rename (F : Folder C) (L : List Name) (pre : Name) (exts : Option (List Name)) : Out C :=
  if special pre then .refused else match loop pre exts F 0 L with
    | none => .missing
    | some G => .done G

end Phyem.Rename
