import Verif.Dir.Model
import Verif.Path.Spec

/-!
# Logs of system calls, and a file system made of trees
-/

namespace Verif.Dir.Spec
open Verif.Path.Spec

/-- The absolute path with these components, no trailing slash. -/
def path (cs : List (List Nat)) : List Nat := cs.flatMap (47 :: ·)

/-- The system calls that matter. -/
inductive Ev where
  | lstat (p : List Nat) (k : Option Kind)
  | unlink (p : List Nat)
  | rmdir (p : List Nat)
  | mkdir (p : List Nat) (mode : Nat)
  deriving DecidableEq

/-- The same system, keeping a log. -/
def logged {σ : Type} (S : Sys σ) : Sys (σ × List Ev) where
  cwd := fun s => let r := S.cwd s.1; ((r.1, s.2), r.2)
  lstat := fun s p => let r := S.lstat s.1 p; ((r.1, s.2 ++ [.lstat p r.2]), r.2)
  opendir := fun s p => let r := S.opendir s.1 p; ((r.1, s.2), r.2)
  unlink := fun s p => let r := S.unlink s.1 p; ((r.1, s.2 ++ [.unlink p]), r.2)
  rmdir := fun s p => let r := S.rmdir s.1 p; ((r.1, s.2 ++ [.rmdir p]), r.2)
  mkdir := fun s p m => let r := S.mkdir s.1 p m; ((r.1, s.2 ++ [.mkdir p m]), r.2)

/-- A path that is below `X`: `X` followed by components (none of them empty, with a slash, "." or ".."), where
`X` was seen not to be a symbolic link, and every directory on the way from `X` to the last component
was seen to be a directory and not a symbolic link. -/
def Inside (X : List Nat) (seen : List Ev) (p : List Nat) : Prop :=
  ∃ es : List (List Nat), p = X ++ path es ∧ (∀ e ∈ es, e ≠ [] ∧ 47 ∉ e ∧ e ≠ dot ∧ e ≠ dotdot) ∧
    ∀ n, n < es.length → ∃ k, Ev.lstat (X ++ path (es.take n)) (some k) ∈ seen ∧ k ≠ .link ∧ (0 < n → k = .dir)

/-- Every removal in a log is of something below `X`. -/
def OnlyInside (X : List Nat) (log : List Ev) : Prop :=
  ∀ pre ev post p, log = pre ++ ev :: post → (ev = .unlink p ∨ ev = .rmdir p) → Inside X pre p

/-! ## Trees -/

/-- Files, symbolic links, directories with named entries. -/
inductive Node where
  | file
  | link
  | dir (es : List (List Nat × Node))

/-- The entry with a name. -/
def find : List (List Nat × Node) → List Nat → Option Node
  | [], _ => none
  | (n, x) :: es, c => if n = c then some x else find es c

/-- The node at a path.  (Links are not followed: they lead nowhere.) -/
def lookup : Node → List (List Nat) → Option Node
  | n, [] => some n
  | .dir es, c :: cs => match find es c with
    | some x => lookup x cs
    | none => none
  | .file, _ :: _ => none
  | .link, _ :: _ => none

/-- The entries without one of them. -/
def drop (es : List (List Nat × Node)) (c : List Nat) : List (List Nat × Node) := es.filter (fun e => e.1 ≠ c)

/-- The entries with one of them changed. -/
def upd : List (List Nat × Node) → List Nat → (Node → Node) → List (List Nat × Node)
  | [], _, _ => []
  | (n, x) :: es, c, f => if n = c then (n, f x) :: es else (n, x) :: upd es c f

/-- The tree with the node at a path replaced. -/
def put : Node → List (List Nat) → Node → Node
  | _, [], x => x
  | .dir es, c :: cs, x => .dir (upd es c (fun y => put y cs x))
  | .file, _ :: _, _ => .file
  | .link, _ :: _, _ => .link

/-- The tree without the node at a path. -/
def erase : Node → List (List Nat) → Node
  | n, [] => n
  | .dir es, [c] => .dir (drop es c)
  | .dir es, c :: d :: cs => .dir (upd es c (fun y => erase y (d :: cs)))
  | .file, _ :: _ => .file
  | .link, _ :: _ => .link

/-- What `lstat` says about a node. -/
def kind : Node → Kind
  | .file => .other
  | .link => .link
  | .dir _ => .dir

/-- A POSIX system with current directory `cwd` and a tree as its file system.  `ls` is the order of the
directory listings. -/
def treeSys (cwd : List Nat) (ls : List (List Nat) → List (List Nat)) : Sys Node where
  cwd := fun t => (t, some cwd)
  lstat := fun t p => (t, (lookup t (comps p)).map kind)
  opendir := fun t p => (t, match lookup t (comps p) with
    | some (.dir es) => some (ls (dot :: dotdot :: es.map (·.1)))
    | _ => none)
  unlink := fun t p => match lookup t (comps p) with
    | some .file => (erase t (comps p), true)
    | some .link => (erase t (comps p), true)
    | _ => (t, false)
  rmdir := fun t p => match lookup t (comps p) with
    | some (.dir []) => if comps p = [] then (t, false) else (erase t (comps p), true)
    | _ => (t, false)
  mkdir := fun t p _ => match lookup t (comps p).dropLast, lookup t (comps p), (comps p).getLast? with
    | some (.dir es), none, some c => (put t (comps p).dropLast (.dir (es ++ [(c, .dir [])])), true)
    | _, _, _ => (t, false)

/-- A name `GetPlatformFilename` accepts and leaves alone, of ASCII characters: not empty, not "." or "..", no
slash, backslash, control character or any of `* ? " < > |`. -/
def GoodName (n : List Nat) : Prop :=
  n ≠ [] ∧ n ≠ dot ∧ n ≠ dotdot ∧ ∀ c ∈ n, 0x20 ≤ c ∧ c < 0x7F ∧ c ≠ 47 ∧ c ≠ 92 ∧ ¬ Forbidden c

/-- In the tree below a directory all names are good, and no path is longer than a limit (`len` is the length of
the part above). -/
def Fits (len : Nat) (t : Node) : Prop :=
  ∀ p x, lookup t p = some x → (∀ n ∈ p, GoodName n) ∧ len + (path p).length ≤ 8189

/-- A name relative to a directory is one that resolves as it should (see C43): it is absolute, or the directory has
no "." or ".." among its components and the name does not start with one of them. -/
def Usual (cwd f : List Nat) : Prop :=
  (slashed f).head? ≠ some 47 →
    (∀ g ∈ comps cwd, g ≠ dot ∧ g ≠ dotdot) ∧ ∀ g, (comps (slashed f)).head? = some g → g ≠ dot ∧ g ≠ dotdot

/-- The components of the absolute name that was used for `f`: they are what `f` resolves to, if it is one of the
usual names. -/
def Named (cwd f : List Nat) (cs : List (List Nat)) : Prop :=
  (∀ g ∈ cs, g ≠ [] ∧ 47 ∉ g) ∧ (Usual cwd f → cs = resolve cwd (slashed f))

/-! ## What a recursive removal leaves -/

/-- A directory with this name can be opened by the library: the name is UTF-8 text of valid code points, has no
character Windows does not like, and only ASCII characters where `char` is signed. -/
def Opens (sgn : Bool) (n : List Nat) : Prop :=
  (∃ cps, (∀ c ∈ cps, Verif.Utf8.Spec.Valid c) ∧ n = Verif.Utf8.Spec.text 1 cps) ∧ (∀ c ∈ n, ¬ Forbidden c) ∧
    (sgn = true → ∀ c ∈ n, c < 0x80)

/-- A name a POSIX file system can have, without a backslash. -/
def Real (n : List Nat) : Prop := n ≠ [] ∧ n ≠ dot ∧ n ≠ dotdot ∧ 0 ∉ n ∧ 47 ∉ n ∧ 92 ∉ n

/-- In the tree below a directory every name is real, no directory has two entries with one name, and no path is longer than
a limit (`len` is the length of the part above). -/
def Proper (len : Nat) (t : Node) : Prop :=
  (∀ p x, lookup t p = some x → len + (path p).length ≤ 8189) ∧
  ∀ p es, lookup t p = some (.dir es) → (es.map (·.1)).Nodup ∧ ∀ n ∈ es.map (·.1), Real n

open Classical in
/-- What is left of the entries of a directory that was opened: files and links are gone, a directory is emptied the same way
if it can be opened, and is gone if nothing is left in it. -/
noncomputable def remains (sgn : Bool) : List (List Nat × Node) → List (List Nat × Node)
  | [] => []
  | (_, .file) :: es => remains sgn es
  | (_, .link) :: es => remains sgn es
  | (n, .dir ds) :: es =>
    match (if Opens sgn n then remains sgn ds else ds) with
    | [] => remains sgn es
    | d :: r => (n, .dir (d :: r)) :: remains sgn es

end Verif.Dir.Spec
