import Verif.WinLink.Priv
import Verif.WinLink.PropsSym

/-!
# C147: what making links does to the privileges of the process
-/

namespace Verif.WinLink.Priv.Spec

/-- Does the account the thread acts for hold a privilege?  A thread that impersonates has a token of its own. -/
def Holds (p : Proc) (q : Nat) : Prop :=
  match p.thread with
  | some t => (t q).isSome
  | none => (p.process q).isSome

/-- Is a privilege on for the thread? -/
def On (p : Proc) (q : Nat) : Prop :=
  match p.thread with
  | some t => t q = some true
  | none => p.process q = some true

/-- Two tokens differ in nothing but whether one privilege is enabled. -/
def Alike (q : Nat) (t u : Token) : Prop := (∀ x, x ≠ q → u x = t x) ∧ ((u q).isSome ↔ (t q).isSome)

/-- Two processes have alike tokens. -/
def AlikeP (q : Nat) (p r : Proc) : Prop :=
  Alike q p.process r.process ∧
    match p.thread, r.thread with
    | some t, some u => Alike q t u
    | none, none => True
    | _, _ => False

/-- All requests are granted. -/
def Granted (a : Ans) : Prop := a.known = true ∧ a.openThread = true ∧ a.openProcess = true ∧ a.adjust = true

instance (p : Proc) (q : Nat) : Decidable (Holds p q) := by
  unfold Holds
  cases p.thread <;> infer_instance

instance (p : Proc) (q : Nat) : Decidable (On p q) := by
  unfold On
  cases p.thread <;> infer_instance

end Verif.WinLink.Priv.Spec

namespace Verif.WinLink.Priv
open Spec

theorem alike_refl (q : Nat) (t : Token) : Alike q t t := ⟨fun _ _ => rfl, Iff.rfl⟩

theorem alikeP_refl (q : Nat) (p : Proc) : AlikeP q p p := by
  refine ⟨alike_refl q _, ?_⟩
  cases p.thread with
  | none => trivial
  | some t => exact alike_refl q t

theorem assign_alike (t : Token) (q : Nat) (e : Bool) : Alike q t (assign t q e).1 := by
  unfold assign
  cases h : t q with
  | none => exact alike_refl q t
  | some b =>
    refine ⟨fun x hx => by simp [hx], ?_⟩
    simp [h]

theorem assign_done (t : Token) (q : Nat) (e : Bool) :
    ((assign t q e).2 = true ↔ (t q).isSome) ∧ ((assign t q e).2 = true → (assign t q e).1 q = some e) ∧
      ((assign t q e).2 = false → (assign t q e).1 = t) := by
  unfold assign
  cases h : t q <;> simp

/-- C147, for every answer of the system: `SetThreadProcessPrivilege` leaves as many handles open as before, keeps every reference
to a library, changes no other privilege, gives none and takes none away, and if it returns false no token has changed. -/
theorem privilege_keeps (a : Ans) (p : Proc) (q : Nat) (e : Bool) :
    (setPrivilege a p q e).1.handles = p.handles ∧ (setPrivilege a p q e).1.libs = p.libs ∧ AlikeP q p (setPrivilege a p q e).1 ∧
      ((setPrivilege a p q e).2 = false → (setPrivilege a p q e).1 = p) := by
  obtain ⟨th, pr, hs, lb⟩ := p
  obtain ⟨k, ot, op, ad, ld, fd⟩ := a
  cases k
  · exact ⟨rfl, rfl, alikeP_refl q _, fun _ => rfl⟩
  cases th with
  | none =>
    cases op
    · exact ⟨rfl, rfl, alikeP_refl q _, fun _ => rfl⟩
    cases ad
    · exact ⟨rfl, rfl, alikeP_refl q _, fun _ => rfl⟩
    refine ⟨rfl, rfl, ⟨assign_alike pr q e, trivial⟩, fun h => ?_⟩
    have := (assign_done pr q e).2.2 h
    show Proc.mk none (assign pr q e).1 hs lb = _
    rw [this]
  | some t =>
    cases ot
    · cases op
      · exact ⟨rfl, rfl, alikeP_refl q _, fun _ => rfl⟩
      cases ad
      · exact ⟨rfl, rfl, alikeP_refl q _, fun _ => rfl⟩
      refine ⟨rfl, rfl, ⟨assign_alike pr q e, alike_refl q t⟩, fun h => ?_⟩
      have := (assign_done pr q e).2.2 h
      show Proc.mk (some t) (assign pr q e).1 hs lb = _
      rw [this]
    · cases ad
      · exact ⟨rfl, rfl, alikeP_refl q _, fun _ => rfl⟩
      refine ⟨rfl, rfl, ⟨alike_refl q pr, assign_alike t q e⟩, fun h => ?_⟩
      have := (assign_done t q e).2.2 h
      show Proc.mk (some (assign t q e).1) pr hs lb = _
      rw [this]

/-- C147, for every answer of the system: if `SetThreadProcessPrivilege` returns true, the token of the thread or that of the process now has the privilege
on or off as asked, and one without an own token has it so for the thread. -/
theorem privilege_true (a : Ans) (p : Proc) (q : Nat) (e : Bool) (h : (setPrivilege a p q e).2 = true) :
    ((setPrivilege a p q e).1.process q = some e ∨ ∃ t, (setPrivilege a p q e).1.thread = some t ∧ t q = some e) ∧
      (p.thread = none → (On (setPrivilege a p q e).1 q ↔ e = true)) := by
  obtain ⟨th, pr, hs, lb⟩ := p
  obtain ⟨k, ot, op, ad, ld, fd⟩ := a
  cases k
  · cases h
  cases th with
  | none =>
    cases op
    · cases h
    cases ad
    · cases h
    have := (assign_done pr q e).2.1 h
    refine ⟨.inl this, fun _ => ?_⟩
    show (assign pr q e).1 q = some true ↔ _
    rw [this]
    simp
  | some t =>
    cases ot
    · cases op
      · cases h
      cases ad
      · cases h
      exact ⟨.inl ((assign_done pr q e).2.1 h), fun h => nomatch h⟩
    · cases ad
      · cases h
      exact ⟨.inr ⟨_, rfl, (assign_done t q e).2.1 h⟩, fun h => nomatch h⟩

/-- C147 (partial): if the system grants the requests, `SetThreadProcessPrivilege` returns true exactly if the account the thread acts for
holds the privilege, and then the privilege is on or off for the thread as asked.
Missing: a thread that impersonates and may not open its own token (`privilege_wrong_token`). -/
theorem privilege_set_partial (a : Ans) (p : Proc) (q : Nat) (e : Bool) (h : Granted a) :
    ((setPrivilege a p q e).2 = true ↔ Holds p q) ∧ (Holds p q → (On (setPrivilege a p q e).1 q ↔ e = true)) := by
  obtain ⟨th, pr, hs, lb⟩ := p
  obtain ⟨k, ot, op, ad, ld, fd⟩ := a
  obtain ⟨h1, h2, h3, h4⟩ := h
  dsimp only at h1 h2 h3 h4
  subst h1 h2 h3 h4
  cases th with
  | none =>
    refine ⟨(assign_done pr q e).1, fun hh => ?_⟩
    have := (assign_done pr q e).2.1 ((assign_done pr q e).1.2 hh)
    show (assign pr q e).1 q = some true ↔ _
    rw [this]
    simp
  | some t =>
    refine ⟨(assign_done t q e).1, fun hh => ?_⟩
    have := (assign_done t q e).2.1 ((assign_done t q e).1.2 hh)
    show (assign t q e).1 q = some true ↔ _
    rw [this]
    simp

/-- Whatever `Symlink` returns, it ends either before the request to make the link or with that. -/
theorem symlink_ends {σ : Type} (S : Sys σ) (E : WinDir.Env) (s : σ) (src dest : List Nat) (s' : σ) (b : Bool)
    (h : symlink S E s src dest = .ok (s', b)) :
    (s' = S.privilege s ∧ b = false) ∨ ∃ x y d, (s', b) = S.create (S.privilege s) x y d := by
  have stop : ∀ {s'' : σ}, (Except.ok (s'', false) : CRes (σ × Bool)) = .ok (s', b) → s' = s'' ∧ b = false := by
    intro s'' h
    injection h with h
    injection h with h1 h2
    exact ⟨h1.symm, h2.symm⟩
  have bnd : ∀ {α : Type} {x : CRes α} {f : α → CRes (σ × Bool)}, (x >>= f) = .ok (s', b) → ∃ v, x = .ok v ∧ f v = .ok (s', b) := by
    intro α x f h
    cases x with
    | error e => cases h
    | ok v => exact ⟨v, rfl, h⟩
  unfold symlink at h
  dsimp only at h
  split at h
  · exact .inl (stop h)
  obtain ⟨c, -, h⟩ := bnd h
  obtain ⟨⟨o1, src2⟩, -, h⟩ := bnd h
  dsimp only at h
  split at h
  · exact .inl (stop h)
  obtain ⟨⟨o2, dest2⟩, -, h⟩ := bnd h
  dsimp only at h
  split at h
  · exact .inl (stop h)
  obtain ⟨w, -, h⟩ := bnd h
  cases w with
  | none => exact .inl (stop h)
  | some w =>
    dsimp only at h
    split at h
    · exact .inl (stop h)
    · unfold request at h
      obtain ⟨x, -, h⟩ := bnd h
      cases x with
      | none => exact .inl (stop h)
      | some x =>
        obtain ⟨y, -, h⟩ := bnd h
        cases y with
        | none => exact .inl (stop h)
        | some y =>
          dsimp only at h
          injection h with h
          exact .inr ⟨_, _, _, h.symm⟩

/-- C147: for every system, every answer and all names, a call of `Symlink` that returns has changed no privilege but the one for making
links, has given and taken none, and has left as many handles open as before. -/
theorem symlink_keeps {σ : Type} (B : Sys σ) (a : Ans) (E : WinDir.Env) (p : Proc) (s : σ) (src dest : List Nat) (p' : Proc) (s' : σ) (b : Bool)
    (h : symlink (guarded B a) E (p, s) src dest = .ok ((p', s'), b)) : p'.handles = p.handles ∧ AlikeP seLink p p' := by
  have key : p' = start' a p := by
    rcases symlink_ends _ _ _ _ _ _ _ h with ⟨h, -⟩ | ⟨x, y, d, h⟩
    · exact congrArg Prod.fst h
    · have h := congrArg (fun r => r.1.1) h
      dsimp only [guarded] at h
      rw [h]
      split <;> rfl
  subst key
  obtain ⟨k1, -, k3, -⟩ := privilege_keeps a p seLink true
  unfold start'
  dsimp only
  split
  · exact ⟨k1, k3⟩
  · exact ⟨k1, k3⟩

theorem map_bind {α β γ : Type} (f : β → γ) (x : CRes α) (g : α → CRes β) :
    (x >>= fun v => (g v).map f) = (x >>= g).map f := by
  cases x <;> rfl

/-- C147: an account that holds the privilege, enabled or not, makes links as on a system that asks for none, if the requests for it are granted. -/
theorem symlink_held {σ : Type} (B : Sys σ) (hB : ∀ s, B.privilege s = s) (a : Ans) (E : WinDir.Env) (p : Proc) (s : σ) (src dest : List Nat)
    (hg : Granted a) (hl : a.load = true) (hf : a.found = true) (hh : Holds p seLink) :
    ∃ p', On p' seLink ∧
      symlink (guarded B a) E (p, s) src dest = (symlink B E s src dest).map fun r => ((p', r.1), r.2) := by
  have on : On (start' a p) seLink := by
    have := ((privilege_set_partial a p seLink true hg).2 hh).2 rfl
    unfold start'
    dsimp only
    split
    · exact this
    · exact this
  refine ⟨start' a p, on, ?_⟩
  have force : inForce (start' a p) seLink = some true := by
    unfold inForce
    unfold On at on
    revert on
    cases (start' a p).thread with
    | none => exact id
    | some t => exact id
  have cr : ∀ x y d, (guarded B a).create (start' a p, s) x y d = ((start' a p, (B.create s x y d).1), (B.create s x y d).2) := by
    intro x y d
    show (if inForce (start' a p) seLink = some true then _ else _) = _
    rw [if_pos force]
  have rq : ∀ d, request (guarded B a) E (start' a p, s) src dest d =
      (request B E s src dest d).map fun r => ((start' a p, r.1), r.2) := by
    intro d
    unfold request
    rw [← map_bind]
    congr 1
    funext x
    cases x with
    | none => rfl
    | some x =>
      dsimp only
      rw [← map_bind]
      congr 1
      funext y
      cases y with
      | none => rfl
      | some y =>
        dsimp only
        rw [cr]
        rfl
  unfold symlink
  dsimp only
  rw [hB]
  have e0 : (guarded B a).privilege (p, s) = (start' a p, s) := rfl
  have e1 : (guarded B a).canLink (start' a p, s) = B.canLink s := by
    show (a.load && a.found && B.canLink s) = _
    rw [hl, hf]; rfl
  rw [e0, e1]
  cases B.canLink s with
  | false => rfl
  | true =>
    simp only [Bool.not_true, Bool.false_eq_true, if_false]
    rw [← map_bind]
    congr 1
    funext c
    rw [← map_bind]
    congr 1
    funext o
    obtain ⟨o1, src2⟩ := o
    dsimp only
    cases o1 with
    | false => rfl
    | true =>
      simp only [Bool.not_true, Bool.false_eq_true, if_false]
      rw [← map_bind]
      congr 1
      funext o
      obtain ⟨o2, dest2⟩ := o
      dsimp only
      cases o2 with
      | false => rfl
      | true =>
        simp only [Bool.not_true, Bool.false_eq_true, if_false]
        rw [← map_bind]
        congr 1
        funext w
        cases w with
        | none => rfl
        | some w =>
          dsimp only
          have : (guarded B a).attrs (start' a p, s) w = B.attrs s w := rfl
          rw [this]
          cases B.attrs s w with
          | none => rfl
          | some f => exact rq _

/-- C147: an account that does not hold the privilege makes no link, whatever the system answers: `Symlink` returns false and the file system is as before. -/
theorem symlink_unheld {σ : Type} (B : Sys σ) (a : Ans) (E : WinDir.Env) (p : Proc) (s : σ) (src dest : List Nat) (p' : Proc) (s' : σ) (b : Bool)
    (hh : ¬ Holds p seLink) (h : symlink (guarded B a) E (p, s) src dest = .ok ((p', s'), b)) : b = false ∧ s' = s := by
  have force : inForce (start' a p) seLink ≠ some true := by
    intro hf
    have hal := (privilege_keeps a p seLink true).2.2.1
    have hf' : inForce (setPrivilege a p seLink true).1 seLink = some true := by
      unfold start' at hf
      dsimp only at hf
      split at hf
      · exact hf
      · exact hf
    apply hh
    unfold Holds
    unfold inForce at hf'
    obtain ⟨h1, h2⟩ := hal
    revert h2 hf'
    cases p.thread with
    | none =>
      cases (setPrivilege a p seLink true).1.thread with
      | none => intro hf' _; dsimp only at hf'; exact h1.2.1 (by rw [hf']; rfl)
      | some u => intro _ h; exact h.elim
    | some t =>
      cases (setPrivilege a p seLink true).1.thread with
      | none => intro _ h; exact h.elim
      | some u => intro hf' h; dsimp only at hf'; exact h.2.1 (by rw [hf']; rfl)
  rcases symlink_ends _ _ _ _ _ _ _ h with ⟨h, hb⟩ | ⟨x, y, d, h⟩
  · exact ⟨hb, congrArg Prod.snd h⟩
  · have e : (guarded B a).create ((guarded B a).privilege (p, s)) x y d = ((start' a p, s), false) := by
      show (if inForce (start' a p) seLink = some true then _ else _) = _
      rw [if_neg force]
      rfl
    rw [e] at h
    injection h with h1 h2
    injection h1 with h3 h4
    exact ⟨h2, h4⟩

/-! ## What is false -/

/-- Everything is granted. -/
def yes : Ans := ⟨true, true, true, true, true, true⟩

/-- An account that holds the privilege, not enabled. -/
def holder : Proc := ⟨none, fun q => if q = seLink then some false else none, 7, 0⟩

/-- Negation of C147: however `Symlink` ends, even without a link made, the privilege stays enabled in the process of an account that holds it. -/
theorem symlink_leaves_on {σ : Type} (B : Sys σ) (a : Ans) (E : WinDir.Env) (p : Proc) (s : σ) (src dest : List Nat) (p' : Proc) (s' : σ) (b : Bool)
    (hg : Granted a) (hh : Holds p seLink) (h : symlink (guarded B a) E (p, s) src dest = .ok ((p', s'), b)) : On p' seLink := by
  have key : p' = start' a p := by
    rcases symlink_ends _ _ _ _ _ _ _ h with ⟨h, -⟩ | ⟨x, y, d, h⟩
    · exact congrArg Prod.fst h
    · have h := congrArg (fun r => r.1.1) h
      dsimp only [guarded] at h
      rw [h]
      split <;> rfl
  have := ((privilege_set_partial a p seLink true hg).2 hh).2 rfl
  subst key
  unfold start'
  dsimp only
  split
  · exact this
  · exact this

/-- Negation of C147: every call keeps one more reference to the library, whatever comes of it. -/
theorem symlink_library_kept {σ : Type} (B : Sys σ) (a : Ans) (E : WinDir.Env) (p : Proc) (s : σ) (src dest : List Nat) (p' : Proc) (s' : σ) (b : Bool)
    (hl : a.load = true) (h : symlink (guarded B a) E (p, s) src dest = .ok ((p', s'), b)) : p'.libs = p.libs + 1 := by
  have key : p' = start' a p := by
    rcases symlink_ends _ _ _ _ _ _ _ h with ⟨h, -⟩ | ⟨x, y, d, h⟩
    · exact congrArg Prod.fst h
    · have h := congrArg (fun r => r.1.1) h
      dsimp only [guarded] at h
      rw [h]
      split <;> rfl
  subst key
  unfold start'
  dsimp only
  rw [if_pos hl]
  show (setPrivilege a p seLink true).1.libs + 1 = _
  rw [(privilege_keeps a p seLink true).2.1]

/-- Negation of C147: a thread that impersonates an account, both accounts hold the privilege, but the thread may not open its own token: the
privilege is enabled for the process instead, the function returns true, and the thread still has it off. -/
theorem privilege_wrong_token : ∃ (a : Ans) (p : Proc), Holds p seLink ∧ ¬ On p seLink ∧ (setPrivilege a p seLink true).2 = true ∧
    ¬ On (setPrivilege a p seLink true).1 seLink ∧ p.process seLink = some false ∧
    (setPrivilege a p seLink true).1.process seLink = some true := by
  refine ⟨{ yes with openThread := false }, { holder with thread := some holder.process }, ?_⟩
  decide

/-! ## Cases -/

/-- Making a link where the privilege was off: a link `C:\d\l` to the file `C:\d`, made. -/
example (E : WinDir.Env) (hE : E.Good) : ∃ p', On p' seLink ∧ symlink (guarded (flat [WinPath.Spec.uni ++ dirD]) yes) E (holder, []) (linkL ++ [0]) (dirD ++ [0]) =
    .ok ((p', [(WinPath.Spec.uni ++ linkL, WinPath.Spec.uni ++ dirD, false)]), true) := by
  obtain ⟨p', on, h⟩ := symlink_held (flat [WinPath.Spec.uni ++ dirD]) (fun _ => rfl) yes E holder [] (linkL ++ [0]) (dirD ++ [0])
    ⟨rfl, rfl, rfl, rfl⟩ rfl rfl (by decide)
  refine ⟨p', on, ?_⟩
  rw [h, (win_symlink_partial (flat [WinPath.Spec.uni ++ dirD]) E hE [] linkL [] dirD [] dirD rfl (flat_cwd _ [])
    (by unfold WinAbs.Fine; decide) (by unfold WinAbs.Fine; decide) (by unfold WinAbs.Fine; decide) (by decide) (by decide) (by decide)
    (WinPath.Spec.uni ++ [67, 58], [[100], [108]]) (by decide) (by decide) (by decide) (by decide) (by decide)
    (WinPath.Spec.uni ++ [67, 58], [[100]]) (by decide) (by decide) (by decide) (by decide) (by decide) (by decide) (by decide)).2 128#32 (by decide)]
  rfl

example : (setPrivilege yes holder seLink true).2 = true ∧ ¬ Holds holder 20 ∧ (setPrivilege yes holder 20 true).2 = false := by
  decide

end Verif.WinLink.Priv
