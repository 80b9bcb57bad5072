import Verif.Model.Basic

/-!
# Which configuration file a process reads (zconf/env.go, zconf/zconf.go:125-166)

Paths as on Unix: lists of characters, `/` between the elements. `filepath.Clean`, `Join` and `Abs` are those of the standard library, by their documentation: they work on the text alone. The file system is
any that has directories with entries and a directory above each; an entry that is a symbolic link is an entry that leads where the link leads. Search permissions are left out: a lookup fails only because
something is missing or is not a directory. The initialisers of a package are run in the order of the names of their files, that of env.go before that of zconf.go.
-/

namespace Zinx.ConfPath

/-- A path, or an element of one. zconf/env.go:22-24. -/
abbrev Name := List Char

/-- The element `.`; `filepath.Clean` at zconf/env.go:34, :37. -/
def dot : Name := ['.']

/-- The element `..`; `filepath.Clean` at zconf/env.go:34, :37. -/
def dotdot : Name := ['.', '.']

/-- The texts between the separators. `filepath.Clean`. Auxiliary. zconf/env.go:34, :37. -/
def split : Name → List Name
  | [] => [[]]
  | c :: cs =>
    if c = '/' then [] :: split cs
    else match split cs with
      | [] => [[c]]
      | e :: es => (c :: e) :: es

/-- `filepath.IsAbs`, used by `filepath.Abs` at zconf/env.go:37. -/
def rooted : Name → Bool
  | '/' :: _ => true
  | _ => false

/-- One element of a path in `filepath.Clean`: nothing and `.` are dropped; `..` takes away the element before, if that is not `..` itself; at the beginning of a rooted path it is dropped. The elements kept so
far come last first. zconf/env.go:34, :37. -/
def cleanStep (r : Bool) (kept : List Name) (e : Name) : List Name :=
  if e = [] ∨ e = dot then kept
  else if e = dotdot then
    match kept with
    | [] => if r then [] else [dotdot]
    | t :: ts => if t = dotdot then dotdot :: t :: ts else ts
  else e :: kept

/-- The elements with separators between them. `filepath.Clean`. Auxiliary. zconf/env.go:34, :37. -/
def unsplit : List Name → Name
  | [] => []
  | [e] => e
  | e :: es => e ++ '/' :: unsplit es

/-- `filepath.Clean`, zconf/env.go:34, :37. -/
def clean (p : Name) : Name :=
  let es := ((split p).foldl (cleanStep (rooted p)) []).reverse
  if rooted p then '/' :: unsplit es else if es = [] then dot else unsplit es

/-- `filepath.Join` of two paths that are not empty, zconf/env.go:34. -/
def join (a b : Name) : Name := clean (a ++ '/' :: b)

/-- `filepath.Abs`, zconf/env.go:37; `wd` is what `os.Getwd` returns, none an error. -/
def absPath (wd : Option Name) (p : Name) : Option Name :=
  if rooted p then some (clean p) else wd.map (join · p)

/-- `EnvDefaultConfigFilePath`, zconf/env.go:18. -/
def defaultPath : Name := ['/', 'c', 'o', 'n', 'f', '/', 'z', 'i', 'n', 'x', '.', 'j', 's', 'o', 'n']

/-- `init` and `GetConfigFilePath`, zconf/env.go:27-46: the path, or none if the initialiser panics. `value` is what the environment variable is set to, empty if it is not set. -/
def configFilePath (value : Name) (wd : Option Name) : Option Name :=
  if value = [] then
    match wd with
    | none => none
    | some w => absPath wd (join w defaultPath)
  else absPath wd value

/-- A file system, for `os.Stat` and `os.ReadFile` at zconf/zconf.go:127, :155: `child` looks a name up in a directory and follows links, `up` is the directory above, `read` the contents, none if it cannot be
read. -/
structure FS where
  Node : Type
  root : Node
  isDir : Node → Bool
  child : Node → Name → Option Node
  up : Node → Node
  read : Node → Option Bytes
  dirRoot : isDir root = true
  upRoot : up root = root

/-- Following the elements of a path from a node. zconf/zconf.go:127, :155. -/
def FS.walk (fs : FS) (d : fs.Node) : List Name → Option fs.Node
  | [] => some d
  | e :: es =>
    if fs.isDir d = false then none
    else if e = [] ∨ e = dot then fs.walk d es
    else if e = dotdot then fs.walk (fs.up d) es
    else match fs.child d e with
      | none => none
      | some n => fs.walk n es

/-- What a path that is not empty names for a process with the given working directory. zconf/zconf.go:127, :155. -/
def FS.at (fs : FS) (cwd : fs.Node) (p : Name) : Option fs.Node := fs.walk (if rooted p then fs.root else cwd) (split p)

/-- What becomes of the configuration: the process ends, the defaults stay, or the settings of a file are taken. zconf/zconf.go:142-166. -/
inductive Loaded (α : Type) where
  | panics
  | defaults
  | settings (c : α)
deriving DecidableEq

/-- `Reload` with `PathExists`, zconf/zconf.go:125-166, for a path; `parse` is `json.Unmarshal`, none an error. That of `PathExists` is dropped. -/
def reload {α : Type} (fs : FS) (cwd : fs.Node) (parse : Bytes → Option α) (p : Name) : Loaded α :=
  match fs.at cwd p with
  | none => .defaults
  | some n =>
    match fs.read n with
    | none => .panics
    | some b =>
      match parse b with
      | none => .panics
      | some c => .settings c

/-- The initialisers of the package, zconf/env.go:27-42, zconf/zconf.go:206-259. -/
def start {α : Type} (fs : FS) (cwd : fs.Node) (parse : Bytes → Option α) (value : Name) (wd : Option Name) : Loaded α :=
  match configFilePath value wd with
  | none => .panics
  | some p => reload fs cwd parse p

end Zinx.ConfPath
