import Verif.WinLink.Spec
import Verif.WinDir.AbsLemmas
import Verif.WinOps.PropsTimes

/-!
# C111: making links on Windows
-/

namespace Verif.WinLink
open Spec
open Verif.WinAbs (absolute baseDir Fit Fine Accepted Simple win_absolute_untrailed_partial)
open Verif.WinAbs.Spec (resolve absPath volume comps path)
open Verif.WinOps (DWord DIRECTORY wideName_yes wide_ascii)
open Verif.WinOps.Spec (Wide)
open Verif.WinDir (Cwd16 cwdText cwdText_ok)
open Verif.WinPath.Spec (canon normal uni Holds)
open Verif.Path.Spec (walk dot dotdot)

theorem absolute_base (sgn : Bool) (reg : List Nat → Option Nat) (junk2 junk3 result : List Nat) (size : Nat) (base cwd : Option (List Nat))
    (name : List Nat) (t : Bool) :
    absolute sgn reg junk2 junk3 result size base cwd name t = absolute sgn reg junk2 junk3 result size (base.or cwd) none name t := by
  have e : baseDir sgn reg base cwd junk2 = baseDir sgn reg (base.or cwd) none junk2 := by
    cases base <;> cases cwd <;> rfl
  unfold absolute
  rw [e]

/-- An absolute name that is already in the form for the system, of ASCII characters. -/
def Formed (p : List Nat) : Prop := Fine p ∧ normal (canon p) = p

instance (p : List Nat) : Decidable (Formed p) := by unfold Formed Fine; infer_instance

theorem fine_ascii {f : List Nat} (h : Fine f) : ∀ c ∈ normal (canon f), c < 0x80 := by
  have hc : ∀ c ∈ canon f, c < 0x80 := by
    intro c hc
    unfold canon at hc
    dsimp only at hc
    have hm : ∀ c ∈ f.map (fun c => if c = 47 then 92 else c), c < 0x80 := by
      intro c hc
      obtain ⟨x, hx, rfl⟩ := List.mem_map.1 hc
      have := (h.2.2.1 x hx).2
      split <;> omega
    split at hc
    · rcases List.mem_append.1 hc with hc | hc
      · exact (show ∀ c ∈ uni, c < 0x80 by decide) c hc
      · exact hm c (List.mem_of_mem_drop hc)
    · exact hm c hc
  have hup : ∀ s : List Nat, (∀ c ∈ s, c < 0x80) → ∀ c ∈ WinPath.Spec.upperDrive s, c < 0x80 := by
    intro s hs c hc
    unfold WinPath.Spec.upperDrive at hc
    split at hc
    · cases s with
      | nil => cases hc
      | cons x s =>
        unfold WinPath.Spec.upperFirst at hc
        rcases List.mem_cons.1 hc with hc | hc
        · have := hs x List.mem_cons_self
          rw [hc]; split <;> omega
        · exact hs c (List.mem_cons_of_mem _ hc)
    · exact hs c hc
  intro c hm
  have hd : ∀ (n : Nat), ∀ c ∈ (canon f).drop n, c < 0x80 := fun n c hc' => hc c (List.mem_of_mem_drop hc')
  have hu : ∀ c ∈ uni, c < 0x80 := by decide
  have hn : ∀ c ∈ WinPath.Spec.unc, c < 0x80 := by decide
  have app : ∀ (a b : List Nat), (∀ c ∈ a, c < 0x80) → (∀ c ∈ b, c < 0x80) → c ∈ a ++ b → c < 0x80 := by
    intro a b ha hb h
    rcases List.mem_append.1 h with h | h
    · exact ha c h
    · exact hb c h
  unfold normal at hm
  split at hm
  · exact app _ _ (fun c h => hc c (List.mem_of_mem_take h)) (hup _ (hd 8)) hm
  · split at hm
    · split at hm
      · exact app _ _ hu (hup _ (hd 4)) hm
      · split at hm
        · exact hc c hm
        · exact app _ _ hn (hd 4) hm
    · split at hm
      · exact app _ _ hu (hup _ hc) hm
      · split at hm
        · exact app _ _ hn (hd 2) hm
        · exact hc c hm

theorem fine_wide {E : WinOps.Env} {f : List Nat} (rest : List Nat) (h : Fine f) (hl : (normal (canon f)).length ≤ 8188)
    (hj : E.junk.length = 8192) (hw : E.wjunk.length = 8192) : WinOps.wideName E (f ++ 0 :: rest) = .ok (some (normal (canon f))) :=
  wideName_yes rest h.fit hj hw (h.accepted E.sgn hl) (wide_ascii (fine_ascii h))

/-- What `Symlink` does, for names of ASCII characters: it asks for the attributes of the target seen from the *link itself* (as if that were a
directory), and if there are any, for a link with the names as they were given. -/
theorem symlink_does {σ : Type} (S : Sys σ) (E : WinDir.Env) (hE : E.Good) (s : σ) (f fr g gr d : List Nat)
    (hcan : S.canLink (S.privilege s) = true) (hcwd : Cwd16 (S.cwd (S.privilege s)) (some d))
    (hf : Fine f) (hg : Fine g) (hd : Fine d) (hdu : uni <+: normal (canon d))
    (hl : (normal (canon d)).length + (normal (canon f)).length ≤ 8188)
    (hs : Simple (normal (canon d)) (normal (canon f)))
    (P : List Nat × List (List Nat)) (hP : P = resolve (normal (canon d)) (normal (canon f))) (hPr : P.2 ≠ []) (hPf : Formed (absPath false P))
    (hPu : uni <+: absPath false P)
    (Q : List Nat × List (List Nat)) (hQ : Q = resolve (absPath false P) (normal (canon g))) (hQr : Q.2 ≠ []) (hQf : Formed (absPath false Q))
    (hl2 : (absPath false P).length + (normal (canon g)).length ≤ 8188)
    (hs2 : Simple (absPath false P) (normal (canon g))) (hQl : (absPath false Q).length ≤ 8188) :
    symlink S E s (f ++ 0 :: fr) (g ++ 0 :: gr) = .ok (match S.attrs (S.privilege s) (absPath false Q) with
      | none => (S.privilege s, false)
      | some a => S.create (S.privilege s) (normal (canon f)) (normal (canon g)) ((a &&& DIRECTORY) ≠ 0#32)) := by
  obtain ⟨cr, hcr⟩ := cwdText_ok E hE hcwd
  obtain ⟨r, e1, r1, ⟨tl, r2⟩⟩ := win_absolute_untrailed_partial E.sgn E.reg E.junk2 E.junk3 E.junk f fr cr d 8192 hE.l2 hE.l3 hE.cell (by rw [hE.l])
    hf hd hdu hl hs (by rw [← hP]; exact hPr) (by rw [← hP]; omega)
  rw [← hP] at r2
  obtain ⟨q, e2, q1, ⟨tl2, q2⟩⟩ := win_absolute_untrailed_partial E.sgn E.reg E.junk2 E.junk3 E.junk g gr tl (absPath false P) 8192 hE.l2 hE.l3 hE.cell
    (by rw [hE.l]) hg hPf.1 (by rw [hPf.2]; exact hPu) (by rw [hPf.2]; exact hl2) (by rw [hPf.2]; exact hs2)
    (by rw [hPf.2, ← hQ]; exact hQr) (by rw [hPf.2, ← hQ]; omega)
  rw [hPf.2, ← hQ] at q2
  unfold symlink
  dsimp only
  rw [hcan, hcr, ok_bind, absolute_base]
  simp only [Bool.not_true, Bool.false_eq_true, if_false, Option.map_some, Option.none_or]
  rw [e1, ok_bind]
  simp only [Bool.not_true, Bool.false_eq_true, if_false]
  rw [absolute_base, Option.some_or, r2, e2, ok_bind]
  simp only [Bool.not_true, Bool.false_eq_true, if_false]
  rw [q2, fine_wide tl2 hQf.1 (by rw [hQf.2]; exact hQl) hE.l hE.lw, ok_bind, hQf.2]
  dsimp only
  cases S.attrs (S.privilege s) (absPath false Q) with
  | none => rfl
  | some a =>
    dsimp only
    unfold request
    rw [fine_wide fr hf (by omega) hE.l hE.lw, ok_bind]
    dsimp only
    rw [fine_wide gr hg (by omega) hE.l hE.lw, ok_bind]

theorem directory_bit (a : DWord) : decide ((a &&& DIRECTORY) ≠ 0#32) = a.getLsbD 4 := by
  rw [show DIRECTORY = BitVec.twoPow 32 4 from rfl, BitVec.and_twoPow]
  cases a.getLsbD 4
  · rfl
  · rfl

/-- The name a link leads to does not depend on where it is if it has a volume of its own or begins with a backslash. -/
theorem resolve_fixed {V : List Nat} {b b' g : List Nat} (hb : volume b = V) (hb' : volume b' = V)
    (h : volume g ≠ [] ∨ g.head? = some 92) : resolve b g = resolve b' g := by
  unfold resolve
  by_cases hv : volume g ≠ []
  · rw [if_pos hv, if_pos hv]
  · rw [if_neg hv, if_neg hv]
    rcases h with h | h
    · exact absurd h hv
    · rw [if_pos h, if_pos h, hb, hb']

/-- C111 (partial): for names of ASCII characters and a target with a volume of its own or one that begins with a slash, `Symlink` makes
the link named, leading to the target as given, exactly if the target exists, and makes it a link to a directory
exactly if the target is one.  The target is looked for from the directory that holds the link.
Missing: relative targets (`win_symlink_relative`), names with other characters, roots. -/
theorem win_symlink_partial {σ : Type} (S : Sys σ) (E : WinDir.Env) (hE : E.Good) (s : σ) (f fr g gr d : List Nat)
    (hcan : S.canLink (S.privilege s) = true) (hcwd : Cwd16 (S.cwd (S.privilege s)) (some d))
    (hf : Fine f) (hg : Fine g) (hd : Fine d) (hdu : uni <+: normal (canon d))
    (hl : (normal (canon d)).length + (normal (canon f)).length ≤ 8188)
    (hs : Simple (normal (canon d)) (normal (canon f)))
    (P : List Nat × List (List Nat)) (hP : P = resolve (normal (canon d)) (normal (canon f))) (hPr : P.2 ≠ []) (hPf : Formed (absPath false P))
    (hPu : uni <+: absPath false P) (hv : volume (absPath false (holder P)) = volume (absPath false P))
    (Q : List Nat × List (List Nat)) (hQ : Q = resolve (absPath false (holder P)) (normal (canon g))) (hQr : Q.2 ≠ []) (hQf : Formed (absPath false Q))
    (hl2 : (absPath false P).length + (normal (canon g)).length ≤ 8188)
    (hs2 : ¬ [92, 46] <:+ Q.1 ∧ ¬ [92, 46, 46] <:+ Q.1) (hQl : (absPath false Q).length ≤ 8188)
    (hown : volume (normal (canon g)) ≠ [] ∨ (normal (canon g)).head? = some 92) :
    (S.attrs (S.privilege s) (absPath false Q) = none → symlink S E s (f ++ 0 :: fr) (g ++ 0 :: gr) = .ok (S.privilege s, false)) ∧
      ∀ a, S.attrs (S.privilege s) (absPath false Q) = some a →
        symlink S E s (f ++ 0 :: fr) (g ++ 0 :: gr) =
          .ok (S.create (S.privilege s) (normal (canon f)) (normal (canon g)) (a.getLsbD 4)) := by
  have hQ' : Q = resolve (absPath false P) (normal (canon g)) := hQ.trans (resolve_fixed hv rfl hown)
  have hsim : Simple (absPath false P) (normal (canon g)) := by
    refine ⟨fun h1 h2 => ?_, by rw [← hQ']; exact hs2.1, by rw [← hQ']; exact hs2.2⟩
    rcases hown with h | h
    · exact absurd h1 h
    · exact absurd h h2
  have := symlink_does S E hE s f fr g gr d hcan hcwd hf hg hd hdu hl hs P hP hPr hPf hPu Q hQ' hQr hQf hl2 hsim hQl
  constructor
  · intro h
    rw [this, h]
  · intro a h
    rw [this, h]
    dsimp only
    rw [directory_bit]

/-- If the system cannot make links, `Symlink` returns false, with nothing changed but the privilege. -/
theorem win_symlink_none {σ : Type} (S : Sys σ) (E : WinDir.Env) (s : σ) (src dest : List Nat) (h : S.canLink (S.privilege s) = false) :
    symlink S E s src dest = .ok (S.privilege s, false) := by
  unfold symlink
  dsimp only
  rw [h]
  rfl

/-! ## Relative targets -/

/-- `C:\d` -/
def dirD : List Nat := [67, 58, 92, 100]
/-- `C:\d\l` -/
def linkL : List Nat := dirD ++ [92, 108]
/-- `x` -/
def nameX : List Nat := [120]

/-- A system with current directory `C:\d` in which exactly the paths in a list exist, as files; making links always works
and is recorded. -/
def flat (files : List (List Nat)) : Sys (List (List Nat × List Nat × Bool)) where
  cwd := fun _ => some dirD
  attrs := fun _ w => if w ∈ files then some 128#32 else none
  reparse := fun _ _ => none
  privilege := fun s => s
  canLink := fun _ => true
  create := fun s a b d => (s ++ [(a, b, d)], true)

theorem flat_cwd (files : List (List Nat)) (s : List (List Nat × List Nat × Bool)) :
    Cwd16 ((flat files).cwd ((flat files).privilege s)) (some dirD) :=
  ⟨dirD, by unfold Utf8.Spec.GoodText Utf8.Spec.Valid Utf8.Spec.Combining; decide, by decide, by decide, by decide, by unfold Fit; decide⟩

theorem flat_does (files : List (List Nat)) (E : WinDir.Env) (hE : E.Good) :
    symlink (flat files) E [] (linkL ++ [0]) (nameX ++ [0]) = .ok (if uni ++ linkL ++ [92, 120] ∈ files then
      ([(uni ++ linkL, nameX, false)], true) else ([], false)) := by
  have h := symlink_does (flat files) E hE [] linkL [] nameX [] dirD rfl (flat_cwd files [])
    (by unfold Fine; decide) (by unfold Fine; decide) (by unfold Fine; decide) (by decide) (by decide) (by decide)
    (uni ++ [67, 58], [[100], [108]]) (by decide) (by decide) (by decide) (by decide)
    (uni ++ [67, 58], [[100], [108], [120]]) (by decide) (by decide) (by decide) (by decide) (by decide) (by decide)
  rw [show absPath false (uni ++ [67, 58], [[100], [108], [120]]) = uni ++ linkL ++ [92, 120] by decide] at h
  rw [h]
  show Except.ok (match (if uni ++ linkL ++ [92, 120] ∈ files then some 128#32 else none) with
      | none => ([], false)
      | some a => _) = _
  by_cases hm : uni ++ linkL ++ [92, 120] ∈ files
  · rw [if_pos hm, if_pos hm]; rfl
  · rw [if_neg hm, if_neg hm]

/-- Negation of C111: the target of `C:\d\l` is given as `x`, and `C:\d\x` exists; nothing is made, because `C:\d\l\x` does not exist. -/
theorem win_symlink_relative (E : WinDir.Env) (hE : E.Good) :
    symlink (flat [uni ++ dirD ++ [92, 120]]) E [] (linkL ++ [0]) (nameX ++ [0]) = .ok ([], false) := by
  rw [flat_does _ E hE, if_neg (by decide)]

/-- The hypotheses of `win_symlink_partial` are met: a link `C:\d\l` to the file `C:\d`. -/
example (E : WinDir.Env) (hE : E.Good) : symlink (flat [uni ++ dirD]) E [] (linkL ++ [0]) (dirD ++ [0]) =
    .ok ([(uni ++ linkL, uni ++ dirD, false)], true) :=
  (win_symlink_partial (flat [uni ++ dirD]) E hE [] linkL [] dirD [] dirD rfl (flat_cwd _ [])
    (by unfold Fine; decide) (by unfold Fine; decide) (by unfold Fine; decide) (by decide) (by decide) (by decide)
    (uni ++ [67, 58], [[100], [108]]) (by decide) (by decide) (by decide) (by decide) (by decide)
    (uni ++ [67, 58], [[100]]) (by decide) (by decide) (by decide) (by decide) (by decide) (by decide) (by decide)).2 128#32 (by decide)

end Verif.WinLink
