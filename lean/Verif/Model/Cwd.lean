import Verif.Model.Basic
/-!
Model of the handling of the process-wide working directory while opening a file to include:
pkg/parser/document_preprocessing.go lines 469-514 (`open` and the closer it returns) and lines
215-224 (`defer closeFile()`), as a small-step machine so that conversions can be interleaved.
The contents of files and the way lines are selected are modelled in `Verif.Model.Include`.
-/
namespace Verif.Cwd

/-- The file system, which the library only reads: existing directories and openable files
(absolute paths). -/
structure World where
  isDir : Text → Bool
  isFile : Text → Bool

/-- filepath.IsAbs on Unix. -/
def isAbs (p : Text) : Bool := p.head? = some '/'

/-- filepath.Abs (document_preprocessing.go:474): relative paths are joined to the *current* working
directory (path cleaning is not modelled). -/
def absPath (cwd p : Text) : Text := if isAbs p then p else cwd ++ '/' :: p

/-- filepath.Dir on an absolute path: everything before the last '/' (line 483). -/
def dirOf (p : Text) : Text := ((p.reverse.dropWhile (· ≠ '/')).drop 1).reverse

/-- os.Chdir: changes the directory if it exists, otherwise it fails and changes nothing. -/
def chdir (w : World) (cwd d : Text) : Text := if w.isDir d then d else cwd

/-- Where one conversion is in the processing of an include directive. -/
inductive Pc where
  /-- between two directives -/
  | idle
  /-- after `os.Getwd` (line 470) -/
  | gotWd (wd : Text)
  /-- after `filepath.Abs` (line 474) -/
  | resolved (wd abs : Text)
  /-- after a successful `os.Chdir(dir)` (line 486) -/
  | entered (wd abs : Text)
  /-- `open` returned (with a file or with an error); the file is read, then the deferred closer runs -/
  | finished (wd abs : Text) (ok : Bool)
deriving DecidableEq, Repr

/-- One conversion: the (joined) paths still to be included, where it is, and what it got so far:
for each directive the absolute path and whether the file could be opened. -/
structure Proc where
  todo : List Text
  pc : Pc
  log : List (Text × Bool)
deriving DecidableEq, Repr

/-- One step of one conversion; the working directory is shared (process-wide). -/
def step (w : World) (cwd : Text) (p : Proc) : Text × Proc :=
  match p.pc with
  | .idle =>
    match p.todo with
    | [] => (cwd, p)
    | _ :: _ => (cwd, { p with pc := .gotWd cwd })
  | .gotWd wd =>
    match p.todo with
    | [] => (cwd, p)
    | path :: _ => (cwd, { p with pc := .resolved wd (absPath cwd path) })
  | .resolved wd abs =>
    if w.isDir (dirOf abs) then (dirOf abs, { p with pc := .entered wd abs })
    else (cwd, { p with pc := .finished wd abs false })
  | .entered wd abs => (cwd, { p with pc := .finished wd abs (w.isFile abs) })
  | .finished wd abs ok => (chdir w cwd wd, { todo := p.todo.tail, pc := .idle, log := p.log ++ [(abs, ok)] })

/-- A set of conversions running in one process. -/
structure Sys where
  cwd : Text
  procs : List Proc
deriving DecidableEq, Repr

/-- Conversion `i` makes a step. -/
def Sys.step (w : World) (s : Sys) (i : Nat) : Sys :=
  match s.procs[i]? with
  | none => s
  | some p => ⟨(Cwd.step w s.cwd p).1, s.procs.set i (Cwd.step w s.cwd p).2⟩

/-- A schedule: which conversion makes a step next. -/
def Sys.run (w : World) (s : Sys) (schedule : List Nat) : Sys := schedule.foldl (Sys.step w) s

/-- A conversion about to include the given paths. -/
def Proc.new (paths : List Text) : Proc := ⟨paths, .idle, []⟩

end Verif.Cwd
