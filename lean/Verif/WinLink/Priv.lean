import Verif.WinLink.Spec

/-!
# Model of `File::SetThreadProcessPrivilege` and of what `Symlink` does to the process (utf8/utf8_file_dir.cpp 856-904)

`Symlink` of `Model.lean` for any system is used here with a system that also has the tokens of the thread and the process, open handles
and references to libraries, and that makes links only for those who have the privilege enabled.

Simplified: a privilege is held or not and enabled or not; its number is found by its name or is not found; a call for
the privileges of an open token changes the one named if it is held, and says "not all assigned" otherwise.  Names of privileges are numbers.
-/

namespace Verif.WinLink.Priv

/-- A token: the privileges held, each enabled or not (`TOKEN_PRIVILEGES`, utf8_file_dir.cpp 859, 870-872). -/
abbrev Token := Nat → Option Bool

/-- The process: the token of the thread if it impersonates someone, that of the process, open handles, references to `KERNEL32.DLL`
(utf8_file_dir.cpp 858-886). -/
structure Proc where
  thread : Option Token
  process : Token
  handles : Nat
  libs : Nat

/-- What the system answers: is the name of the privilege known, may the token of the thread and that of the process be opened, does
the request to adjust go through, is there the library and the function in it (utf8_file_dir.cpp 863-874, 886-889). -/
structure Ans where
  known : Bool
  openThread : Bool
  openProcess : Bool
  adjust : Bool
  load : Bool
  found : Bool

/-- Which token a handle is for (utf8_file_dir.cpp 865-868). -/
inductive Which where
  | thread
  | process

/-- `OpenThreadToken`, then `OpenProcessToken` (utf8_file_dir.cpp 865-868). -/
def openToken (a : Ans) (p : Proc) : Option (Which × Proc) :=
  if p.thread.isSome && a.openThread then some (.thread, { p with handles := p.handles + 1 })
  else if a.openProcess then some (.process, { p with handles := p.handles + 1 })
  else none

/-- One privilege of a token set, if it is held: the new token and whether all was assigned (`AdjustTokenPrivileges`, utf8_file_dir.cpp 874). -/
def assign (t : Token) (q : Nat) (enable : Bool) : Token × Bool :=
  match t q with
  | none => (t, false)
  | some _ => (fun x => if x = q then some enable else t x, true)

/-- `AdjustTokenPrivileges` and `GetLastError` (utf8_file_dir.cpp 874). -/
def adjustToken (a : Ans) (p : Proc) (w : Which) (q : Nat) (enable : Bool) : Proc × Bool :=
  if !a.adjust then (p, false)
  else
    match w, p.thread with
    | .thread, some t => let r := assign t q enable; ({ p with thread := some r.1 }, r.2)
    | .thread, none => (p, false)
    | .process, _ => let r := assign p.process q enable; ({ p with process := r.1 }, r.2)

/-- `SetThreadProcessPrivilege` (utf8_file_dir.cpp 856-879). -/
def setPrivilege (a : Ans) (p : Proc) (q : Nat) (enable : Bool) : Proc × Bool :=
  if !a.known then (p, false)
  else
    match openToken a p with
    | none => (p, false)
    | some (w, p) =>
      let r := adjustToken a p w q enable
      ({ r.1 with handles := r.1.handles - 1 }, r.2)

/-- `SeCreateSymbolicLinkPrivilege` (utf8_file_dir.cpp 884). -/
def seLink : Nat := 35

/-- The beginning of `Symlink`: the privilege and the library (utf8_file_dir.cpp 884-887). -/
def start' (a : Ans) (p : Proc) : Proc :=
  let p := (setPrivilege a p seLink true).1
  if a.load then { p with libs := p.libs + 1 } else p

/-- The token the system looks at: that of the thread if there is one (system behaviour behind utf8_file_dir.cpp 903). -/
def inForce (p : Proc) : Token :=
  match p.thread with
  | some t => t
  | none => p.process

/-- A system with tokens over one without (utf8_file_dir.cpp 884-903): `CreateSymbolicLinkW` refuses those who have not enabled the privilege. -/
def guarded {σ : Type} (B : Sys σ) (a : Ans) : Sys (Proc × σ) where
  cwd := fun s => B.cwd s.2
  attrs := fun s w => B.attrs s.2 w
  reparse := fun s w => B.reparse s.2 w
  privilege := fun s => (start' a s.1, s.2)
  canLink := fun s => a.load && a.found && B.canLink s.2
  create := fun s x y d =>
    if inForce s.1 seLink = some true then let r := B.create s.2 x y d; ((s.1, r.1), r.2) else (s, false)

end Verif.WinLink.Priv
