import Verif.WinDir.Model
import Verif.WinOps.Spec
import Verif.Dir.Spec

/-!
# Logs of system calls, and a volume whose directories are trees
-/

namespace Verif.WinDir.Spec
open Verif.Utf8.Spec (Valid GoodText text)
open Verif.Path.Spec (dot dotdot)
open Verif.WinPath.Spec (canon normal uni)
open Verif.WinAbs.Spec (volume comps resolve)
open Verif.WinOps (DWord)
open Verif.Dir.Spec (Node lookup erase put)

/-- The components, each after a backslash. -/
def path (cs : List (List Nat)) : List Nat := cs.flatMap (92 :: ·)

/-- The pattern that finds everything in a directory: a backslash and an asterisk. -/
def star : List Nat := [92, 42]

/-- The attribute of directories. -/
def Folder (a : DWord) : Prop := a.getLsbD 4 = true

/-- The attribute of symbolic links and mount points. -/
def Link (a : DWord) : Prop := a.getLsbD 10 = true

/-- The system calls that matter. -/
inductive Ev where
  | attrs (p : List Nat) (a : Option DWord)
  | find (p : List Nat) (es : Option (List (List Nat × DWord)))
  | delete (p : List Nat)
  | rmdir (p : List Nat)
  | mkdir (p : List Nat)

/-- The same system, keeping a log. -/
def logged {σ : Type} (S : Sys σ) : Sys (σ × List Ev) where
  cwd := fun s => let r := S.cwd s.1; ((r.1, s.2), r.2)
  attrs := fun s p => let r := S.attrs s.1 p; ((r.1, s.2 ++ [.attrs p r.2]), r.2)
  find := fun s p => let r := S.find s.1 p; ((r.1, s.2 ++ [.find p r.2]), r.2)
  delete := fun s p => let r := S.delete s.1 p; ((r.1, s.2 ++ [.delete p]), r.2)
  rmdir := fun s p => let r := S.rmdir s.1 p; ((r.1, s.2 ++ [.rmdir p]), r.2)
  mkdir := fun s p => let r := S.mkdir s.1 p; ((r.1, s.2 ++ [.mkdir p]), r.2)

/-- A name in a directory. -/
def EntryName (e : List Nat) : Prop := e ≠ [] ∧ 92 ∉ e ∧ 0 ∉ e

/-- The path `X` followed by components `es` is below `X`: `X` was seen not to be a link, each component
was listed in the directory before it, and all but the last of them were listed as directories that are not links. -/
def Inside (X : List Nat) (seen : List Ev) (es : List (List Nat)) : Prop :=
  (∀ e ∈ es, EntryName e ∧ e ≠ dot ∧ e ≠ dotdot) ∧
    (es ≠ [] → ∃ a, Ev.attrs X (some a) ∈ seen ∧ ¬ Link a) ∧
    ∀ pre e post, es = pre ++ e :: post →
      ∃ l a, Ev.find (X ++ path pre ++ star) (some l) ∈ seen ∧ (e, a) ∈ l ∧ (post ≠ [] → Folder a ∧ ¬ Link a)

/-- Every removal in a log is of something below `X`. -/
def OnlyInside (X : List Nat) (log : List Ev) : Prop :=
  ∀ pre ev post p, log = pre ++ ev :: post → (ev = .delete p ∨ ev = .rmdir p) → ∃ es, p = X ++ path es ∧ Inside X pre es

/-- `w` is the text `s` in UTF-16. -/
def Same16 (s w : List Nat) : Prop := ∃ cps, (∀ c ∈ cps, Valid c) ∧ s = text 1 cps ∧ w = text 2 cps

/-- Names that resolve as they should (see C88), `d` being the current directory: the host is not ".", and for a relative name no component of the
current directory and not the first component of the name is "." or "..". -/
def Usual (d f : List Nat) : Prop :=
  (volume (normal (canon f)) ≠ [] → ¬ [92, 46] <:+ volume (normal (canon f))) ∧
    (volume (normal (canon f)) = [] → (normal (canon f)).head? ≠ some 92 →
      (∀ g ∈ comps (WinAbs.Spec.path (normal (canon d))), g ≠ dot ∧ g ≠ dotdot) ∧
        ∀ g, (comps (normal (canon f))).head? = some g → g ≠ dot ∧ g ≠ dotdot)

/-- The volume and the components of the absolute name that was used for `f`, seen from the current directory: they are what `f`
resolves to, if it is one of the usual names. -/
def Named (d : Option (List Nat)) (f V : List Nat) (cs : List (List Nat)) : Prop :=
  uni <+: V ∧ (∀ g ∈ cs, g ≠ [] ∧ 92 ∉ g) ∧
    (volume (normal (canon f)) = [] → ∃ x, d = some x) ∧
    ∀ x, (d = some x ∨ volume (normal (canon f)) ≠ []) → Usual x f → (V, cs) = resolve (normal (canon x)) (normal (canon f))

/-! ## Trees -/

/-- The attributes of a node (1: read-only, 16: directory, 1024: link, 128: nothing); `dl`: a link to a directory. -/
def attrsOf (ro dl : Bool) : Node → DWord
  | .file => if ro then 1#32 else 128#32
  | .link => (if ro then 1#32 else 0#32) ||| (if dl then 1040#32 else 1024#32)
  | .dir _ => (if ro then 1#32 else 0#32) ||| 16#32

/-- The components of a path on the volume `V`. -/
def onVolume (V p : List Nat) : Option (List (List Nat)) := if V <+: p then some (comps (p.drop V.length)) else none

/-- The node at a path of the volume. -/
def at_ (V : List Nat) (t : Node) (p : List Nat) : Option (List (List Nat) × Node) :=
  match onVolume V p with
  | none => none
  | some cs => (lookup t cs).map (cs, ·)

/-- A Windows system with current directory `cwd` and a volume `V` with a tree on it.  `ro` tells which paths are read-only, `dl` which links lead to
directories, `ls` is the order of the listings. -/
def treeSys (cwd : Option (List Nat)) (V : List Nat) (ro dl : List (List Nat) → Bool)
    (ls : List (List Nat × DWord) → List (List Nat × DWord)) : Sys Node where
  cwd := fun t => (t, cwd)
  attrs := fun t p => (t, (at_ V t p).map fun x => attrsOf (ro x.1) (dl x.1) x.2)
  find := fun t p => (t, if star <:+ p then
      match at_ V t (p.take (p.length - 2)) with
      | some (cs, .dir es) => some (ls ((dot, 16#32) :: (dotdot, 16#32) ::
          es.map fun e => (e.1, attrsOf (ro (cs ++ [e.1])) (dl (cs ++ [e.1])) e.2)))
      | _ => none
    else none)
  delete := fun t p => match at_ V t p with
    | some (cs, .file) => if ro cs then (t, false) else (erase t cs, true)
    | some (cs, .link) => if ro cs ∨ dl cs then (t, false) else (erase t cs, true)
    | _ => (t, false)
  rmdir := fun t p => match at_ V t p with
    | some (cs, .dir []) => if ro cs ∨ cs = [] then (t, false) else (erase t cs, true)
    | some (cs, .link) => if ro cs ∨ ¬ dl cs then (t, false) else (erase t cs, true)
    | _ => (t, false)
  mkdir := fun t p => match onVolume V p with
    | none => (t, false)
    | some cs => match lookup t cs.dropLast, lookup t cs, cs.getLast? with
      | some (.dir es), none, some c => (put t cs.dropLast (.dir (es ++ [(c, .dir [])])), true)
      | _, _, _ => (t, false)

/-- In the tree below a directory (at `cs`) names are names, those in one directory are different, no path is longer than a limit (`len` is the
length of the part above), and nothing is read-only. -/
def Fits (ro : List (List Nat) → Bool) (cs : List (List Nat)) (len : Nat) (t : Node) : Prop :=
  ∀ p x, lookup t p = some x → (∀ n ∈ p, EntryName n ∧ n ≠ dot ∧ n ≠ dotdot) ∧ len + (path p).length ≤ 8189 ∧ ro (cs ++ p) = false ∧
    ∀ es, x = .dir es → (es.map (·.1)).Nodup

end Verif.WinDir.Spec
