import Verif.Model.Elements
import Mathlib.Logic.Function.Basic

/-!
# File output

`utils.py:13-80`: `save_sol` and `modify_vtu_file`. A file system maps paths to inodes (two paths can name
the same file through links) and inodes to text. Permissions and encoding errors are not modelled. What
`meshio` writes is modelled as the mesh object itself; a failing writer is a parameter.
-/

namespace JaxFem
namespace Files

/-- Text files. `dirExists p` says whether the directory part of `p` exists. -/
structure FS where
  resolve : List Char → Option Nat
  content : Nat → List Char
  next : Nat
  dirExists : List Char → Bool

/-- `open(path, "w")`: truncates an existing file or creates an empty one. -/
def FS.openW (fs : FS) (path : List Char) : Except Err (FS × Nat) :=
  match fs.resolve path with
  | some i => .ok ({ fs with content := Function.update fs.content i [] }, i)
  | none =>
    if fs.dirExists path then
      .ok ({ fs with
        resolve := Function.update fs.resolve path (some fs.next)
        content := Function.update fs.content fs.next []
        next := fs.next + 1 }, fs.next)
    else .error .fileNotFound

/-- Universal newlines: text mode reading turns `"\r\n"` and `"\r"` into `"\n"`. -/
def universalNewlines : List Char → List Char
  | [] => []
  | '\r' :: '\n' :: s => '\n' :: universalNewlines s
  | '\r' :: s => '\n' :: universalNewlines s
  | c :: s => c :: universalNewlines s

/-- Iteration over the lines of a text: each line includes its `"\n"`. -/
def lines : List Char → List (List Char)
  | [] => []
  | c :: s =>
    if c = '\n' then ['\n'] :: lines s
    else match lines s with
      | [] => [[c]]
      | l :: ls => (c :: l) :: ls

/-- `str.replace(old, new)` for non-empty `old`: left to right, without overlaps. The first argument bounds
the recursion (the length of the text suffices). -/
def replaceAux (old new : List Char) : Nat → List Char → List Char
  | _, [] => []
  | 0, s => s
  | k + 1, c :: s =>
    if old.isPrefixOf (c :: s) then new ++ replaceAux old new k ((c :: s).drop old.length)
    else c :: replaceAux old new k s

/-- `s.replace(old, new)`. -/
def strReplace (old new s : List Char) : List Char := replaceAux old new s.length s

/-- `'<VTKFile type="UnstructuredGrid" version="2.2">'` (`utils.py:78`). -/
def header22 : List Char := "<VTKFile type=\"UnstructuredGrid\" version=\"2.2\">".toList
/-- `'<VTKFile type="UnstructuredGrid" version="1.0">'` (`utils.py:78`). -/
def header10 : List Char := "<VTKFile type=\"UnstructuredGrid\" version=\"1.0\">".toList

/-- `modify_vtu_file(input_file_path, output_file_path)` (`utils.py:60-80`): the input is opened, then the
output is opened for writing, then the input is read line by line. -/
def modifyVtuFile (fs : FS) (inp out : List Char) : Except Err FS :=
  match fs.resolve inp with
  | none => .error .fileNotFound
  | some i => do
    let (fs1, o) ← fs.openW out
    let written := (lines (universalNewlines (fs1.content i))).map (strReplace header22 header10)
    pure { fs1 with content := Function.update fs1.content o written.flatten }

/-! ### `save_sol` -/

/-- `os.path.dirname(p)`: everything up to the last slash, without trailing slashes unless there is
nothing else. -/
def dirname (p : List Char) : List Char :=
  let head := (p.reverse.dropWhile (· != '/')).reverse
  if head.all (· == '/') then head else (head.reverse.dropWhile (· == '/')).reverse

/-- An array: shape and entries. -/
structure NArr (K : Type) where
  shape : List Nat
  data : List K
  deriving DecidableEq

/-- `dict[name] = value`, insertion order kept. -/
def dictSet {V : Type} (d : List (String × V)) (name : String) (v : V) : List (String × V) :=
  if d.any (·.1 == name) then d.map fun p => if p.1 == name then (name, v) else p else d ++ [(name, v)]

/-- `meshio.Mesh` with one cell block. -/
structure OutMesh (K : Type) where
  points : List (List K)
  cellType : String
  cells : List (List Nat)
  pointData : List (String × NArr K)
  cellData : List (String × NArr K)

/-- State of the outside world: directories created and mesh files written. -/
structure World (K : Type) where
  dirs : List (List Char)
  files : List Char → Option (OutMesh K)

variable {K : Type}

/-- Loop over `cell_infos` (`utils.py:46-51`). -/
def addCellInfos (f32 : K → K) (numCells : Nat) : List (String × NArr K) → OutMesh K → Except Err (OutMesh K)
  | [], m => .ok m
  | (name, a) :: rest, m =>
    if a.shape = [numCells] then
      addCellInfos f32 numCells rest { m with cellData := dictSet m.cellData name ⟨a.shape, a.data.map f32⟩ }
    else .error .assertion

/-- Loop over `point_infos` (`utils.py:52-56`); `len(data)` of a zero-dimensional array raises
`TypeError`. -/
def addPointInfos (f32 : K → K) (lenSol : Nat) : List (String × NArr K) → OutMesh K → Except Err (OutMesh K)
  | [], m => .ok m
  | (name, a) :: rest, m =>
    match a.shape with
    | [] => .error .type
    | len :: _ =>
      if len = lenSol then
        addPointInfos f32 lenSol rest { m with pointData := dictSet m.pointData name ⟨a.shape, a.data.map f32⟩ }
      else .error .assertion

/-- `save_sol` (`utils.py:13-57`) on the outside world; returns the new world and the exception, if any.
`f32` is the conversion to single precision, `mkdirOk` whether the directory can be created (an empty name
cannot), `writerOk` whether the writer accepts the mesh. -/
def saveSol (f32 : K → K) (mkdirOk : List Char → Bool) (writerOk : OutMesh K → Bool) (w : World K)
    (eleType : String) (points : List (List K)) (cells : List (List Nat)) (numCells : Nat) (sol : NArr K)
    (solFile : List Char) (cellInfos pointInfos : List (String × NArr K)) : World K × Except Err Unit :=
  match getMeshioCellType eleType with
  | .error e => (w, .error e)
  | .ok cellType =>
    let dir := dirname solFile
    if dir = [] ∨ mkdirOk dir = false then (w, .error .fileNotFound)
    else
      let w1 := { w with dirs := dir :: w.dirs }
      let m0 : OutMesh K := ⟨points, cellType, cells, [("sol", ⟨sol.shape, sol.data.map f32⟩)], []⟩
      match (do addPointInfos f32 (sol.shape.headD 0) pointInfos (← addCellInfos f32 numCells cellInfos m0)) with
      | .error e => (w1, .error e)
      | .ok m =>
        if writerOk m then ({ w1 with files := Function.update w1.files solFile (some m) }, .ok ())
        else (w1, .error .value)

end Files
end JaxFem
