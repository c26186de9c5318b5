import Verif.NamedMem.Model

/-!
# What sharing a named object means

Only the labels of an execution are used.
-/

namespace Verif.NamedMem.Spec

/-- State of the object as the labels tell it. -/
inductive Stage where
  /-- nobody was told to initialise it -/
  | none
  /-- handle `t` was told to and has not done so -/
  | pending (t : Nat)
  /-- it is initialised -/
  | done
  deriving DecidableEq

def stageStep : Stage → Label → Stage
  | _, .ret t .first => .pending t
  | .pending u, .inited t => if t = u then .done else .pending u
  | s, _ => s

def stage (h : List Label) : Stage := h.foldl stageStep .none

/-- Whether handle `t` has the object open: it was opened, and not yet closed again. -/
def holdStep (t : Nat) : Bool → Label → Bool
  | b, .ret u r => if u = t ∧ r ≠ .fail then true else b
  | b, .callClose u => if u = t then false else b
  | b, _ => b

def holds (t : Nat) (h : List Label) : Bool := h.foldl (holdStep t) false

/-- From the first successful open on, some handle has the object open at any time. -/
def Kept (ls : List Label) : Prop :=
  ∀ q, q <+: ls → (∃ t, .ret t .first ∈ q) → ∃ t, holds t q = true

/-- A label is right after the history `h`: nobody is told to initialise the object if somebody was
before; nobody gets it ready-made or uses it unless it is initialised; only its own `total` bytes are
accessed. -/
def right (total : Nat) (h : List Label) : Label → Prop
  | .ret _ .first => ∀ u, .ret u .first ∉ h
  | .ret _ .other => stage h = .done
  | .use _ => stage h = .done
  | .touch _ _ hi => hi ≤ total
  | _ => True

end Verif.NamedMem.Spec
