import Verif.WinDir.RmLemmas
import Verif.Dir.TreeLemmas

/-!
# The recursion of `Rmdir` on a tree
-/

namespace Verif.WinDir
open Spec
open Verif.Path (cstr join)
open Verif.Path.Spec (dot dotdot)
open Verif.WinAbs (sw sw_sw comps_sw sw_noback sw_mem swp)
open Verif.WinOps (DWord DIRECTORY REPARSE)
open Verif.Dir (find_upd find_drop drop_upd names_drop find_mem lookup_append lookup_nil lookup_put put_put put_self put_snoc erase_snoc)
open Verif.Dir.Spec (Node lookup erase put drop upd)

abbrev find := Verif.Dir.Spec.find

theorem sw_noslash {s : List Nat} (h : 92 ∉ s) : 47 ∉ sw s := by
  intro hm
  have := (sw_mem (c := 92) (s := s)).1 hm
  exact h this

theorem comps_path {cs : List (List Nat)} (h : ∀ g ∈ cs, g ≠ [] ∧ 92 ∉ g) : WinAbs.Spec.comps (path cs) = cs := by
  have hs : path cs = sw (join (cs.map sw)) := by
    rw [sw_path, List.map_map, show (sw ∘ sw) = id from funext (fun x => sw_sw x), List.map_id]
  rw [hs, comps_sw, sw_sw, Dir.comps_of_join, List.map_map, show (sw ∘ sw) = id from funext (fun x => sw_sw x), List.map_id]
  intro g hg
  obtain ⟨x, hx, rfl⟩ := List.mem_map.1 hg
  exact ⟨fun e => (h x hx).1 (by rw [← sw_sw x, e]; rfl), sw_noslash (h x hx).2⟩

theorem on_volume (V : List Nat) {cs : List (List Nat)} (h : ∀ g ∈ cs, g ≠ [] ∧ 92 ∉ g) : onVolume V (V ++ path cs) = some cs := by
  unfold onVolume
  rw [if_pos (List.prefix_append _ _), List.drop_left, comps_path h]

theorem at_path (V : List Nat) (t : Node) {cs : List (List Nat)} (h : ∀ g ∈ cs, g ≠ [] ∧ 92 ∉ g) :
    at_ V t (V ++ path cs) = (lookup t cs).map (cs, ·) := by
  unfold at_
  rw [on_volume V h]

theorem Spec.EntryName.clean {e : List Nat} (h : EntryName e) : e ≠ [] ∧ 92 ∉ e := ⟨h.1, h.2.1⟩

/-- The listing of a directory of the tree. -/
def listing (ro dl : List (List Nat) → Bool) (cs : List (List Nat)) (es : List (List Nat × Node)) : List (List Nat × DWord) :=
  (dot, 16#32) :: (dotdot, 16#32) :: es.map fun e => (e.1, attrsOf (ro (cs ++ [e.1])) (dl (cs ++ [e.1])) e.2)

section
variable (cwd : Option (List Nat)) (V : List Nat) (ro dl : List (List Nat) → Bool) (ls : List (List Nat × DWord) → List (List Nat × DWord))

theorem find_tree (t : Node) {cs : List (List Nat)} (h : ∀ g ∈ cs, g ≠ [] ∧ 92 ∉ g) :
    (treeSys cwd V ro dl ls).find t (V ++ path cs ++ star) =
      (t, match lookup t cs with
        | some (.dir es) => some (ls (listing ro dl cs es))
        | _ => none) := by
  have h1 : (V ++ path cs ++ star).take ((V ++ path cs ++ star).length - 2) = V ++ path cs := by
    rw [show (V ++ path cs ++ star).length - 2 = (V ++ path cs).length by simp [star]; omega, List.take_left]
  have h2 : star <:+ V ++ path cs ++ star := List.suffix_append _ _
  unfold treeSys
  dsimp only
  rw [if_pos h2, h1, at_path V t h]
  cases lookup t cs with
  | none => rfl
  | some x => cases x <;> rfl

/-- What the recursive call does. -/
def Clears (rec : Node → List Nat → Nat → CRes (Node × List Nat)) (bound : Nat) : Prop :=
  (∀ t cs es tl, lookup t cs = some (.dir es) → (∀ g ∈ cs, EntryName g) →
    Fits ro cs (V ++ path cs).length (.dir es) → bound ≤ (V ++ path cs).length → (V ++ path cs ++ 0 :: tl).length = 8192 →
    ∃ tl', rec t (V ++ path cs ++ 0 :: tl) (V ++ path cs).length = .ok (put t cs (.dir []), V ++ path cs ++ 0 :: tl') ∧
      (V ++ path cs ++ 0 :: tl').length = 8192) ∧
  ∀ t cs tl, lookup t cs = none → (∀ g ∈ cs, EntryName g) → bound ≤ (V ++ path cs).length → (V ++ path cs ++ 0 :: tl).length = 8192 →
    ∃ tl', rec t (V ++ path cs ++ 0 :: tl) (V ++ path cs).length = .ok (t, V ++ path cs ++ 0 :: tl') ∧
      (V ++ path cs ++ 0 :: tl').length = 8192

theorem Spec.Fits.child {ro : List (List Nat) → Bool} {cs : List (List Nat)} {len : Nat} {es : List (List Nat × Node)} {e : List Nat} {x : Node} (h : Fits ro cs len (.dir es)) (he : find es e = some x) :
    (EntryName e ∧ e ≠ dot ∧ e ≠ dotdot) ∧ Fits ro (cs ++ [e]) (len + (1 + e.length)) x := by
  have hlk : ∀ p, lookup (.dir es) (e :: p) = lookup x p := by intro p; rw [lookup, show Verif.Dir.Spec.find es e = some x from he]
  refine ⟨(h [e] x (by rw [hlk, lookup_nil])).1 e List.mem_cons_self, ?_⟩
  intro p y hp
  obtain ⟨h1, h2, h3, h4⟩ := h (e :: p) y (by rw [hlk]; exact hp)
  refine ⟨fun n hn => h1 n (List.mem_cons_of_mem _ hn), ?_, by rw [List.append_assoc]; exact h3, h4⟩
  rw [path_cons] at h2
  simp at h2
  omega

theorem Spec.Fits.drop {ro : List (List Nat) → Bool} {cs : List (List Nat)} {len : Nat} {es : List (List Nat × Node)} (h : Fits ro cs len (.dir es)) (e : List Nat) : Fits ro cs len (.dir (drop es e)) := by
  intro p x hp
  cases p with
  | nil =>
    obtain ⟨h1, h2, h3, h4⟩ := h [] _ (lookup_nil _)
    refine ⟨h1, h2, h3, ?_⟩
    intro es' he
    rw [lookup_nil] at hp
    cases hp
    cases he
    exact (h4 es rfl).sublist (List.Sublist.map _ List.filter_sublist)
  | cons c p =>
    rw [lookup, find_drop] at hp
    by_cases hc : c = e
    · rw [if_pos hc] at hp; cases hp
    · rw [if_neg hc] at hp
      exact h (c :: p) x (by rw [lookup]; exact hp)

theorem entries_tree (rec : Node → List Nat → Nat → CRes (Node × List Nat)) (bound : Nat) (hrec : Clears V ro rec bound) (cs : List (List Nat))
    (hV0 : 0 ∉ V) (hcs : ∀ g ∈ cs, EntryName g) (hb : bound ≤ (V ++ path cs).length + 1) :
    ∀ (ns : List (List Nat × DWord)) (t : Node) (es : List (List Nat × Node)) (tl : List Nat), lookup t cs = some (.dir es) →
      Fits ro cs (V ++ path cs).length (.dir es) → (∀ n ∈ es.map (·.1), n ∈ ns.map (·.1)) →
      (∀ e ∈ ns, e.1 = dot ∨ e.1 = dotdot ∨ (EntryName e.1 ∧ (V ++ path cs).length + (1 + e.1.length) ≤ 8189 ∧
        ∀ x, find es e.1 = some x → e.2 = attrsOf false (dl (cs ++ [e.1])) x)) →
      (V ++ path cs ++ 92 :: tl).length = 8192 →
      ∃ tl', entries (treeSys cwd V ro dl ls) rec (V ++ path cs).length ns t (V ++ path cs ++ 92 :: tl) =
        .ok (put t cs (.dir []), V ++ path cs ++ 92 :: tl') ∧ (V ++ path cs ++ 92 :: tl').length = 8192
  | [], t, es, tl, ht, _, hns, _, hl => by
    have : es = [] := by
      cases es with
      | nil => rfl
      | cons e es => exact absurd (hns e.1 (by simp)) (by simp)
    subst this
    exact ⟨tl, by rw [entries, put_self cs t _ ht], hl⟩
  | (e, a) :: ns, t, es, tl, ht, hfit, hns, hgood, hl => by
    have ih := entries_tree rec bound hrec cs hV0 hcs hb ns
    have hgood' := fun x hx => hgood x (List.mem_cons_of_mem (e, a) hx)
    rw [entries]
    by_cases hdot : e = [46] ∨ e = [46, 46]
    · rw [if_pos hdot]
      refine ih t es _ ht hfit ?_ hgood' hl
      intro n hn
      rcases List.mem_cons.1 (hns n hn) with rfl | h
      · exfalso
        obtain ⟨x, hx⟩ := find_mem hn
        have hg := (hfit.child hx).1
        rcases hdot with h | h
        · exact hg.2.1 h
        · exact hg.2.2 h
      · exact h
    rw [if_neg hdot]
    obtain ⟨hge, hel, hax⟩ : EntryName e ∧ (V ++ path cs).length + (1 + e.length) ≤ 8189 ∧
        ∀ x, find es e = some x → a = attrsOf false (dl (cs ++ [e])) x := by
      rcases hgood (e, a) List.mem_cons_self with h | h | h
      · exact absurd (.inl h) hdot
      · exact absurd (.inr h) hdot
      · exact h
    obtain ⟨tl1, h1, h1l⟩ := read_ok (V ++ path cs) e tl hl (by omega)
    rw [if_pos (by omega), h1, ok_bind]
    have hp : ∀ tl, V ++ path cs ++ 92 :: (e ++ 0 :: tl) = V ++ path (cs ++ [e]) ++ 0 :: tl := by intro tl; rw [path_snoc]; simp
    have hce : ∀ g ∈ cs ++ [e], EntryName g := by
      intro g hg
      rcases List.mem_append.1 hg with hg | hg
      · exact hcs g hg
      · simp at hg; subst hg; exact hge
    have hp0 : 0 ∉ V ++ path (cs ++ [e]) := by
      intro hm
      rcases List.mem_append.1 hm with hm | hm
      · exact hV0 hm
      · exact path_zero (fun g hg => (hce g hg).2.2) hm
    have hlk : lookup t (cs ++ [e]) = find es e := by
      rw [lookup_append, ht]
      show lookup (.dir es) [e] = _
      rw [lookup]
      cases hx : Verif.Dir.Spec.find es e with
      | none => exact hx.symm
      | some x => dsimp only; rw [lookup_nil x]; exact hx.symm
    have hat : ∀ t', at_ V t' (V ++ path (cs ++ [e])) = (lookup t' (cs ++ [e])).map (cs ++ [e], ·) :=
      fun t' => at_path V t' (fun g hg => (hce g hg).clean)
    have hcstr : ∀ tl, cstr (V ++ path cs ++ 92 :: (e ++ 0 :: tl)) = .ok (V ++ path (cs ++ [e])) := by
      intro tl; rw [hp]; exact Path.cstr_ok _ _ hp0
    have hlen2 : (V ++ path (cs ++ [e])).length = (V ++ path cs).length + (e.length + 1) := by rw [path_snoc]; simp; omega
    -- the entry is gone, whatever it was
    have hrest : ∀ (t2 : Node) (tl2 : List Nat), t2 = put t cs (.dir (drop es e)) → (V ++ path cs ++ 92 :: tl2).length = 8192 →
        ∃ tl', entries (treeSys cwd V ro dl ls) rec (V ++ path cs).length ns t2 (V ++ path cs ++ 92 :: tl2) =
          .ok (put t cs (.dir []), V ++ path cs ++ 92 :: tl') ∧ (V ++ path cs ++ 92 :: tl').length = 8192 := by
      intro t2 tl2 ht2 hl2
      subst ht2
      obtain ⟨tl', g1, g2⟩ := ih (put t cs (.dir (drop es e))) (drop es e) tl2 (lookup_put cs t _ _ ht) (hfit.drop e)
        (fun n hn => by
          obtain ⟨h3, h4⟩ := names_drop hn
          rcases List.mem_cons.1 (hns n h3) with h5 | h5
          · exact absurd h5 h4
          · exact h5)
        (fun y hy => by
          rcases hgood' y hy with h | h | ⟨h2, h3, h4⟩
          · exact .inl h
          · exact .inr (.inl h)
          · refine .inr (.inr ⟨h2, h3, fun x hx => h4 x ?_⟩)
            have hx : Verif.Dir.Spec.find (drop es e) y.1 = some x := hx
            rw [find_drop] at hx
            split at hx
            · cases hx
            · exact hx) hl2
      rw [put_put] at g1
      exact ⟨tl', g1, g2⟩
    cases hf : find es e with
    | none =>
      -- it is gone already
      have hrest0 : ∀ tl2, (V ++ path cs ++ 92 :: tl2).length = 8192 →
          ∃ tl', entries (treeSys cwd V ro dl ls) rec (V ++ path cs).length ns t (V ++ path cs ++ 92 :: tl2) =
            .ok (put t cs (.dir []), V ++ path cs ++ 92 :: tl') ∧ (V ++ path cs ++ 92 :: tl').length = 8192 := by
        intro tl2 hl2
        refine ih t es _ ht hfit ?_ hgood' hl2
        intro n hn
        rcases List.mem_cons.1 (hns n hn) with rfl | h
        · exfalso
          obtain ⟨x, hx⟩ := find_mem hn
          have hx : find es n = some x := hx
          rw [hf] at hx; cases hx
        · exact h
      rw [hf] at hlk
      have hdel : ((treeSys cwd V ro dl ls).delete t (V ++ path (cs ++ [e]))).1 = t := by
        simp only [treeSys, hat, hlk, Option.map_none]
      have hrm : ((treeSys cwd V ro dl ls).rmdir t (V ++ path (cs ++ [e]))).1 = t := by
        simp only [treeSys, hat, hlk, Option.map_none]
      by_cases hd : (a &&& DIRECTORY) = 0#32
      · rw [if_pos hd, hcstr, ok_bind, hdel]
        exact hrest0 _ h1l
      · rw [if_neg hd]
        by_cases hk : (a &&& REPARSE) = 0#32
        · rw [if_pos hk, hp]
          obtain ⟨tl2, k1, k2⟩ := hrec.2 t (cs ++ [e]) tl1 hlk hce (by omega) (by rw [← hp]; exact h1l)
          rw [← hlen2, k1, ok_bind]
          dsimp only
          rw [← hp, hcstr, ok_bind, hrm]
          rw [← hp] at k2
          exact hrest0 _ k2
        · rw [if_neg hk, ok_bind]
          dsimp only
          rw [hcstr, ok_bind, hrm]
          exact hrest0 _ h1l
    | some x =>
      have hro : ro (cs ++ [e]) = false := (hfit [e] x (by
        rw [lookup, show Verif.Dir.Spec.find es e = some x from hf]; exact lookup_nil x)).2.2.1
      have ha := hax x hf
      rw [hf] at hlk
      cases x with
      | file =>
        have hd : (a &&& DIRECTORY) = 0#32 := by rw [ha]; show 128#32 &&& DIRECTORY = 0#32; decide
        rw [if_pos hd, hcstr, ok_bind]
        apply hrest _ _ ?_ h1l
        simp only [treeSys, hat, hlk, Option.map_some, hro]
        exact erase_snoc cs e t es ht
      | link =>
        cases hdl : dl (cs ++ [e]) with
        | false =>
          rw [hdl] at ha
          have hd : (a &&& DIRECTORY) = 0#32 := by rw [ha]; decide
          rw [if_pos hd, hcstr, ok_bind]
          apply hrest _ _ ?_ h1l
          simp only [treeSys, hat, hlk, Option.map_some, hro, hdl]
          exact erase_snoc cs e t es ht
        | true =>
          rw [hdl] at ha
          have hd : ¬ (a &&& DIRECTORY) = 0#32 := by rw [ha]; decide
          have hk : ¬ (a &&& REPARSE) = 0#32 := by rw [ha]; decide
          rw [if_neg hd, if_neg hk, ok_bind]
          dsimp only
          rw [hcstr, ok_bind]
          apply hrest _ _ ?_ h1l
          simp only [treeSys, hat, hlk, Option.map_some, hro, hdl]
          exact erase_snoc cs e t es ht
      | dir ds =>
        have hd : ¬ (a &&& DIRECTORY) = 0#32 := by rw [ha]; show ¬ (0#32 ||| 16#32) &&& DIRECTORY = 0#32; decide
        have hk : (a &&& REPARSE) = 0#32 := by rw [ha]; show (0#32 ||| 16#32) &&& REPARSE = 0#32; decide
        rw [if_neg hd, if_pos hk, hp]
        obtain ⟨tl2, k1, k2⟩ := hrec.1 t (cs ++ [e]) ds tl1 hlk hce
          (by rw [hlen2, Nat.add_comm e.length 1]; exact (hfit.child hf).2) (by omega) (by rw [← hp]; exact h1l)
        rw [← hlen2, k1, ok_bind]
        dsimp only
        rw [← hp, hcstr, ok_bind]
        rw [← hp] at k2
        apply hrest _ _ ?_ k2
        have hlk2 := lookup_put (cs ++ [e]) t (.dir []) _ hlk
        simp only [treeSys, hat, hlk2, Option.map_some]
        rw [if_neg (by simp [hro])]
        have := put_snoc cs e t (.dir []) es ht
        rw [this]
        dsimp only
        rw [erase_snoc cs e _ _ (lookup_put cs t _ _ ht), put_put, drop_upd]

theorem find_of_mem {es : List (List Nat × Node)} {e : List Nat × Node} (h : (es.map (·.1)).Nodup) (he : e ∈ es) {x : Node} (hx : find es e.1 = some x) :
    x = e.2 := by
  induction es with
  | nil => cases he
  | cons y ys ih =>
    obtain ⟨n, z⟩ := y
    have hx : Verif.Dir.Spec.find ((n, z) :: ys) e.1 = some x := hx
    rw [Verif.Dir.Spec.find] at hx
    rw [List.map_cons, List.nodup_cons] at h
    rcases List.mem_cons.1 he with rfl | he
    · rw [if_pos rfl] at hx
      injection hx with hx
      exact hx.symm
    · rw [if_neg] at hx
      · exact ih h.2 he hx
      · intro e'
        exact h.1 (List.mem_map.2 ⟨e, he, e'.symm⟩)

theorem rmRec_tree (hV0 : 0 ∉ V) (hls : ∀ l n, n ∈ ls l ↔ n ∈ l) : ∀ k, Clears V ro (rmRec (treeSys cwd V ro dl ls) k) (8192 - k)
  | 0 => by
    constructor
    · intro t cs es tl _ _ _ hb hl
      simp at hl hb
      omega
    · intro t cs tl _ _ hb hl
      simp at hl hb
      omega
  | k + 1 => by
    have hz : ∀ {cs : List (List Nat)}, (∀ g ∈ cs, EntryName g) → 0 ∉ V ++ path cs ++ star := by
      intro cs hcs hm
      rcases List.mem_append.1 hm with hm | hm
      · rcases List.mem_append.1 hm with hm | hm
        · exact hV0 hm
        · exact path_zero (fun g hg => (hcs g hg).2.2) hm
      · exact absurd hm (by decide)
    have hcstr : ∀ {cs : List (List Nat)} (_ : ∀ g ∈ cs, EntryName g) (tl1 : List Nat),
        cstr (V ++ path cs ++ 92 :: (42 :: 0 :: tl1)) = .ok (V ++ path cs ++ star) := by
      intro cs hcs tl1
      have hp : V ++ path cs ++ 92 :: (42 :: 0 :: tl1) = V ++ path cs ++ star ++ 0 :: tl1 := by simp [star]
      rw [hp]
      exact Path.cstr_ok _ _ (hz hcs)
    constructor
    · intro t cs es tl ht hcs hfit hb hl
      obtain ⟨_, hroot, _, hnd⟩ := hfit [] _ (lookup_nil _)
      rw [path_nil] at hroot
      have hroot : (V ++ path cs).length ≤ 8189 := hroot
      have hbig : ¬ (V ++ path cs).length ≥ 8190 := by omega
      obtain ⟨b2, b3, tl1, w1, w2, w3, e3, l3⟩ := star_ok (V ++ path cs) tl hl hbig
      rw [rmRec, if_neg hbig, w1, ok_bind, w2, ok_bind, w3, ok_bind, e3, hcstr hcs, ok_bind,
        find_tree cwd V ro dl ls t (fun g hg => (hcs g hg).clean), ht]
      dsimp only
      rw [e3] at l3
      obtain ⟨tl', g1, g2⟩ := entries_tree cwd V ro dl ls (rmRec (treeSys cwd V ro dl ls) k) (8192 - k) (rmRec_tree hV0 hls k)
        cs hV0 hcs (by omega) (ls (listing ro dl cs es)) t es _ ht hfit
        (fun n hn => by
          obtain ⟨x, hx, rfl⟩ := List.mem_map.1 hn
          have : (x.1, attrsOf (ro (cs ++ [x.1])) (dl (cs ++ [x.1])) x.2) ∈ ls (listing ro dl cs es) :=
            (hls _ _).2 (List.mem_cons_of_mem _ (List.mem_cons_of_mem _ (List.mem_map.2 ⟨x, hx, rfl⟩)))
          exact List.mem_map.2 ⟨_, this, rfl⟩)
        (fun n hn => by
          rcases List.mem_cons.1 ((hls _ n).1 hn) with rfl | h
          · exact .inl rfl
          · rcases List.mem_cons.1 h with rfl | h
            · exact .inr (.inl rfl)
            · obtain ⟨y, hy, rfl⟩ := List.mem_map.1 h
              obtain ⟨x, hx⟩ := find_mem (List.mem_map_of_mem (f := fun e : List Nat × Node => e.1) hy)
              obtain ⟨h1, h2⟩ := hfit.child hx
              obtain ⟨_, h3, h4, _⟩ := h2 [] _ (lookup_nil _)
              rw [path_nil] at h3
              rw [List.append_nil] at h4
              refine .inr (.inr ⟨h1.1, by simpa using h3, ?_⟩)
              intro z hz
              dsimp only at h4 hz ⊢
              rw [h4, find_of_mem (hnd es rfl) hy hz])
        l3
      rw [g1, ok_bind]
      dsimp only
      rw [wr_append, ok_bind]
      exact ⟨tl', rfl, by simpa using g2⟩
    · intro t cs tl ht hcs hb hl
      rw [rmRec]
      by_cases hbig : (V ++ path cs).length ≥ 8190
      · rw [if_pos hbig]
        exact ⟨tl, rfl, hl⟩
      · obtain ⟨b2, b3, tl1, w1, w2, w3, e3, l3⟩ := star_ok (V ++ path cs) tl hl hbig
        rw [if_neg hbig, w1, ok_bind, w2, ok_bind, w3, ok_bind, e3, hcstr hcs, ok_bind,
          find_tree cwd V ro dl ls t (fun g hg => (hcs g hg).clean), ht]
        dsimp only
        rw [wr_append, ok_bind]
        rw [e3] at l3
        exact ⟨_, rfl, by simpa using l3⟩

end

end Verif.WinDir
