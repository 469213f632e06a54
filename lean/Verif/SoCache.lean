import Mathlib.Data.List.Basic
/-
The cache of compiled libraries (`matx.script`): how a library is named, and how several processes that share
the directory `dso` compile and load it.

Sources (all under /repo):
* python/matx/toolchain.py 243-256 (path_prefix), 276-279 (hit_cache), 304-353 (build_dso), 361-387 (script)
* python/matx/contrib/util.py 179-196 (filelock), python/matx/contrib/_filelock.py 176-283 (acquire, release),
  423-445 (UnixFileLock)
* python/matx/runtime/module.py 181-262 (export_library)
* python/matx/script/analysis/source_analysis.py 80-110 (source_code is the text of the whole file)
* python/matx/script/parser.py 1964-1985 (visit_Name: global and free variables with constant values)

Simplifications: strings are lists of characters.  `md5` is a parameter.  The generated code is a parameter, a
function of the program: the text, line and name of the compiled function or class and of its dependencies, and the
values of the global and free variables that they read.  Of the two libraries (with and without the new C++ ABI)
one is modelled; they are built one after the other under one lock.  The compiler creates the library and
completes it later; a failing compiler removes it.  Nothing else changes the directory.  `flock` on a file that is
never removed gives the lock to one process at a time and takes it back when the process ends.
-/

namespace Verif.SoCache

abbrev Str := List Char

/-! ### The name of a library -/

/-- A compiled function or class: file, line, name and text of the whole file (`ASTNode.span`). -/
structure Node where
  file : Str
  line : Nat
  name : Str
  text : Str

/-- What `matx.script` compiles: the object, its dependencies in order, and the constants that global and free
variables are bound to. -/
structure Prog (β : Type) where
  main : Node
  deps : List Node
  consts : List (Str × β)

/-- `os.path.basename`. -/
def basename (s : Str) : Str := (s.reverse.takeWhile fun c => c != '/').reverse

/-- `os.path.splitext(s)[0]` of a base name: up to the last dot that is not leading. -/
def stem (s : Str) : Str :=
  let ext := s.reverse.takeWhile fun c => c != '.'
  let root := (s.reverse.drop (ext.length + 1)).reverse
  if root.all (fun c => c == '.') then s else root

/-- `cache_str`, toolchain.py 248-249. -/
def cacheStr {β : Type} (sha version : Str) (p : Prog β) : Str :=
  p.main.text ++ p.deps.flatMap Node.text ++ sha ++ version

/-- `path_prefix`, toolchain.py 243-256, and `sopath`. -/
def soPath {β : Type} (dir sha version : Str) (md5 : Str → Str) (p : Prog β) : Str :=
  dir ++ "/lib".toList ++ stem (basename p.main.file) ++ '_' :: (toString p.main.line).toList ++
    '_' :: p.main.name ++ "_plugin_".toList ++ (md5 (cacheStr sha version p)).take 16 ++ ".so".toList

/-! ### Building -/

/-- A file that may be a library. -/
inductive File (χ : Type) where
  | absent
  | part
  | full (code : χ)
deriving DecidableEq

/-- Where a process is in `build_dso` and what follows. -/
inductive PC (χ : Type) where
  | start
  | locked
  | compiling
  | built
  | free
  | loaded (f : File χ)
  | dead
deriving DecidableEq

/-- The directory, the lock files, the processes, and how many compilations were started per library. -/
structure St (χ : Type) where
  so : Str → File χ
  lock : Str → Option Nat
  pc : Nat → PC χ
  builds : Str → Nat

section
variable {χ : Type}

/-- Changing a value of a function. -/
def upd {α β : Type} [DecidableEq α] (f : α → β) (a : α) (b : β) : α → β := fun x => if x = a then b else f x

/-- One step of process `p`, which compiles the library `path p` with the code `gen p`. -/
inductive Step (cache : Bool) (path : Nat → Str) (gen : Nat → χ) : St χ → St χ → Prop where
  /-- `flock` succeeds, _filelock.py 426-434 -/
  | lock {s : St χ} (p : Nat) : s.pc p = .start → s.lock (path p) = none →
      Step cache path gen s { s with lock := upd s.lock (path p) (some p), pc := upd s.pc p .locked }
  /-- `hit_cache`, toolchain.py 276-279 -/
  | hit {s : St χ} (p : Nat) : s.pc p = .locked → cache = true → s.so (path p) ≠ .absent →
      Step cache path gen s { s with pc := upd s.pc p .built }
  /-- the compiler creates the library -/
  | create {s : St χ} (p : Nat) : s.pc p = .locked → (cache = true → s.so (path p) = .absent) →
      Step cache path gen s { s with so := upd s.so (path p) .part, pc := upd s.pc p .compiling,
                                     builds := upd s.builds (path p) (s.builds (path p) + 1) }
  /-- the compiler completes it -/
  | done {s : St χ} (p : Nat) : s.pc p = .compiling →
      Step cache path gen s { s with so := upd s.so (path p) (.full (gen p)), pc := upd s.pc p .built }
  /-- the compiler fails: the exception leaves the `with` block -/
  | fail {s : St χ} (p : Nat) : s.pc p = .compiling →
      Step cache path gen s { s with so := upd s.so (path p) .absent, lock := upd s.lock (path p) none,
                                     pc := upd s.pc p .dead }
  /-- the end of the `with` block, _filelock.py 436-444 -/
  | unlock {s : St χ} (p : Nat) : s.pc p = .built →
      Step cache path gen s { s with lock := upd s.lock (path p) none, pc := upd s.pc p .free }
  /-- the library is loaded when the object is made, after the lock is released -/
  | load {s : St χ} (p : Nat) : s.pc p = .free →
      Step cache path gen s { s with pc := upd s.pc p (.loaded (s.so (path p))) }

/-- The process ends at any point: the system takes its lock. -/
def crash (s : St χ) (p : Nat) : St χ :=
  { s with lock := fun x => if s.lock x = some p then none else s.lock x, pc := upd s.pc p .dead }

/-- All runs; `kill` says whether a process may be killed in a given place. -/
inductive Run (cache : Bool) (path : Nat → Str) (gen : Nat → χ) (kill : PC χ → Prop) : St χ → St χ → Prop where
  | refl (s : St χ) : Run cache path gen kill s s
  | step {s t u : St χ} : Run cache path gen kill s t → Step cache path gen t u → Run cache path gen kill s u
  | crash {s t : St χ} (p : Nat) : Run cache path gen kill s t → kill (t.pc p) →
      Run cache path gen kill s (crash t p)

/-- An empty directory. -/
def init : St χ := ⟨fun _ => .absent, fun _ => none, fun _ => .start, fun _ => 0⟩

/-- In the critical section. -/
def PC.inside : PC χ → Bool
  | .locked | .compiling | .built => true
  | _ => false

end

/-! ### Compiling one program after the other -/

/-- `build_dso` in one process with nobody else: the directory maps names to code. -/
def build {χ : Type} (so : Str → Option χ) (path : Str) (code : χ) : (Str → Option χ) × χ :=
  match so path with
  | some c => (so, c)
  | none => (upd so path (some code), code)

/-- A sequence of calls of `matx.script`: the codes that are loaded. -/
def scripts {χ β : Type} (path : Prog β → Str) (gen : Prog β → χ) : (Str → Option χ) → List (Prog β) → List χ
  | _, [] => []
  | so, p :: r => (build so (path p) (gen p)).2 :: scripts path gen (build so (path p) (gen p)).1 r

end Verif.SoCache
