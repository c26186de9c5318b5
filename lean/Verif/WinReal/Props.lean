import Verif.WinReal.Lemmas
import Verif.WinLink.PropsSym

/-!
# C112: real names on Windows
-/

namespace Verif.WinReal
open Spec
open Verif.Utf8.Spec
open Verif.WinOps (text_append text_ascii wideName_yes wideName_no normal_good canon_good)
open Verif.WinOps.Spec (Wide)
open Verif.WinPath.Spec (uni vol unc fold Same canon normal Holds)
open Verif.WinPath (getPlatform info preUni preNt)
open Verif.WinAbs (Fit Fine Accepted get_ok info_volume normal_forms split_uni split_volume split_text Rooted sw swp)
open Verif.WinAbs.Spec (comps volume path)
open Verif.WinLink (fine_ascii)
open Verif.Path (join)

theorem walk_prefix {S : Sys} {p r : List Nat} {cs : List (List Nat)} (h : Walk S p cs r) : p <+: r := by
  induction h with
  | nil p => exact List.prefix_refl p
  | missing _ _ _ ih => exact (List.prefix_append _ _).trans ih
  | entry _ _ _ _ _ _ _ ih => exact (List.prefix_append _ _).trans ih

/-- A path behind a volume is a name `GetPlatformFilename` is defined for. -/
theorem fit_rooted {vs : List (List Nat)} (hv : Rooted vs) (t : List Nat) (h0 : 0 ∉ sw (join vs) ++ t)
    (hl : (sw (join vs) ++ t).length ≤ 8181) : Fit (sw (join vs) ++ t) := by
  have hcan : ∀ s : List Nat, canon (uni ++ s) = uni ++ s.map (fun c => if c = 47 then 92 else c) := by
    intro s
    unfold canon
    dsimp only
    rw [if_neg]
    · simp [uni]
    · simp [uni]
  have hno : ∀ s : List Nat, ¬ vol <+: uni ++ s := by
    intro s h
    simp [uni, vol] at h
  cases hv with
  | drive c w hc =>
    have e : sw (join [[], [63], c :: 58 :: w]) ++ t = uni ++ (swp c :: 58 :: (sw w ++ t)) := by
      simp [uni, swp]
    rw [e] at h0 hl ⊢
    refine ⟨h0, by rw [hcan]; exact hno _, ?_, by omega, by omega⟩
    rw [hcan, List.prefix_append_right_inj]
    intro h
    simp [vol] at h
  | host u h hu h1 h2 =>
    have h3 := (Verif.WinAbs.same_unc hu).2.2
    have e : sw (join [[], [63], u, h]) ++ t = uni ++ (u ++ 92 :: (sw h ++ t)) := by
      simp [uni, swp, h3]
    rw [e] at h0 hl ⊢
    refine ⟨h0, by rw [hcan]; exact hno _, ?_, by omega, by omega⟩
    rw [hcan, List.prefix_append_right_inj]
    intro hp
    cases u with
    | nil => simp [Same] at hu
    | cons x u =>
      have hx : fold x = fold 85 := by
        have := hu
        simp [Same] at this
        exact this.1
      have h86 : (if x = 47 then 92 else x) = 86 := by
        simp [vol] at hp
        exact hp.1.symm
      have : x = 86 := by split at h86 <;> omega
      subst this
      exact absurd hx (by decide)

/-- The beginning. -/
theorem start_ok (n tl f3 : List Nat) (links : Nat) (h0 : 0 ∉ n) (hu : uni <+: n) (hb : f3.length = 8192) (hl : (n ++ 0 :: tl).length = 8192)
    (ha : ∀ c ∈ n, c < 0x80) :
    ∃ st, start (n ++ 0 :: tl) f3 links = .ok (some st) ∧ At n (volume n) (path n) (volume n) st ∧ st.links = links := by
  obtain ⟨i, h1, h2, h3, _⟩ := info_volume n tl h0
  have hat : Path.at_ (n ++ 0 :: tl) 0 preUni = .ok true := by
    rw [WinPath.at_ok n tl preUni 0 (by decide) (Nat.zero_le _)]
    simpa using (show preUni <+: n from hu)
  have hpre : volume n <+: n := by
    unfold volume
    split
    · exact List.nil_prefix
    · exact ⟨_, by
        rw [List.append_assoc, List.takeWhile_append_dropWhile, List.take_append_drop]⟩
  have hsplit : n = volume n ++ path n := by
    obtain ⟨t, ht⟩ := hpre
    unfold path
    generalize volume n = v at ht ⊢
    rw [← ht, List.drop_left]
  have hvl : (volume n).length ≤ n.length := hpre.length_le
  have hl' : n.length ≤ 8191 := by rw [List.length_append, List.length_cons] at hl; omega
  refine ⟨⟨n ++ 0 :: tl, i.length, i.startPath, volume n ++ f3.drop (volume n).length, i.startPath, links⟩, ?_, ?_, rfl⟩
  · unfold start
    rw [hat, ok_bind, if_neg (by decide), h1, ok_bind]
    unfold memcpyTo
    rw [h3, if_pos (by simp; omega), if_pos (by omega), ok_bind]
    have : (n ++ 0 :: tl).take (volume n).length = volume n := by
      conv => lhs; arg 2; rw [hsplit, List.append_assoc]
      rw [List.take_left]
    rw [this]
    simp
  · have hva : ∀ c ∈ volume n, c < 0x80 := fun c hc => ha c (hpre.subset hc)
    have htv : text 1 (volume n) = volume n := text_ascii hva
    refine ⟨⟨tl, rfl⟩, hsplit, h3, h2, ⟨?_, ?_⟩, ⟨_, by rw [htv]⟩, ?_, by rw [htv]; exact h3, hl⟩
    · intro c hc
      exact ⟨Verif.WinOps.ascii_valid (hva c hc), fun e => h0 (e ▸ hpre.subset hc)⟩
    · obtain ⟨t, rfl⟩ := hu
      obtain ⟨v, hv⟩ := hpre
      cases hvn : volume (uni ++ t) with
      | nil =>
        exfalso
        unfold volume Verif.WinAbs.Spec.prefixLen at hvn
        by_cases hb : WinPath.Spec.Begins unc (uni ++ t)
        · rw [if_pos hb, if_neg (by decide)] at hvn
          simp [uni] at hvn
        · rw [if_neg hb, if_pos (List.prefix_append _ _), if_neg (by decide)] at hvn
          simp [uni] at hvn
      | cons x w =>
        rw [hvn] at hv
        simp only [List.cons_append, uni] at hv
        rw [(List.cons.inj hv).1]
        rfl
    · simp; omega

theorem give_ok (S : Sys) (E : Env) (hj : E.junk.length = 8192) (hw : E.wide.length = 8192) {n q : List Nat} {st : St} (h : At n n [] q st)
    (result : List Nat) (size : Nat) (hs : size ≤ result.length) (hl : (text 1 q).length ≤ 8191) (hf : Fit (text 1 q)) :
    ∃ b res, give S E st result size = .ok (b, res) ∧ res.length = result.length ∧ (size < (text 1 q).length + 1 → b = false ∧ res = result) ∧
      ((text 1 q).length + 1 ≤ size → Holds res (text 1 q) ∧
        (b = true ↔ Accepted E.sgn (text 1 q) ∧ ∃ w, Wide (text 1 q) w ∧ (S.attrs w).isSome)) := by
  obtain ⟨R, hR⟩ := h.buf
  have hsz := h.size
  rw [hR, List.length_append] at hsz
  cases R with
  | nil => simp at hsz; omega
  | cons z R =>
    unfold give
    rw [hR, wr_append' _ R z 0 _ h.x2, ok_bind, h.x2]
    by_cases hlt : size < (text 1 q).length + 1
    · rw [if_pos hlt]
      exact ⟨_, _, rfl, rfl, fun _ => ⟨rfl, rfl⟩, fun h => by omega⟩
    · rw [if_neg hlt]
      unfold memcpyTo
      rw [if_pos (by simp), if_pos (by omega), ok_bind]
      have e : result.take 0 ++ (text 1 q ++ 0 :: R).take ((text 1 q).length + 1) ++ result.drop (0 + ((text 1 q).length + 1)) =
          text 1 q ++ 0 :: result.drop ((text 1 q).length + 1) := by
        rw [List.take_length_add_append]
        simp
      rw [e]
      have hlen : (text 1 q ++ 0 :: result.drop ((text 1 q).length + 1)).length = result.length := by
        simp; omega
      by_cases ha : Accepted E.sgn (text 1 q)
      · obtain ⟨cps, hg, hn⟩ := normal_good (canon_good ha.2.2.1)
        rw [hf.normal] at hn
        have hwd : Wide (text 1 q) (text 2 cps) := ⟨cps, hg, hn, rfl⟩
        rw [wideName_yes (E := opsEnv E) _ hf hj hw ha hwd, ok_bind]
        refine ⟨_, _, rfl, hlen, fun h => absurd h hlt, fun _ => ⟨⟨_, rfl⟩, ?_⟩⟩
        constructor
        · intro h; exact ⟨ha, _, hwd, h⟩
        · rintro ⟨_, w, h1, h2⟩
          rw [Verif.WinOps.wide_unique hwd h1]; exact h2
      · rw [wideName_no (E := opsEnv E) _ hf hj ha, ok_bind]
        refine ⟨_, _, rfl, hlen, fun h => absurd h hlt, fun _ => ⟨⟨_, rfl⟩, ?_⟩⟩
        constructor
        · intro h; cases h
        · rintro ⟨h, _⟩; exact absurd h ha

/-- The buffers are arrays of 8192 elements. -/
structure Env.Good (E : Env) : Prop where
  f2 : E.f2.length = 8192
  f3 : E.f3.length = 8192
  f4 : E.f4.length = 8192
  wide : E.wide.length = 8192
  junk : E.junk.length = 8192
  junk2 : E.junk2.length = 8192
  junk3 : E.junk3.length = 8192

/-- The call up to the loop. -/
theorem realpath_start (S : Sys) (E : Env) (hE : E.Good) (result f rest : List Nat) (size : Nat) (hf : Fine f)
    (hu : uni <+: normal (canon f)) (hl : (normal (canon f)).length ≤ 8180) : ∃ st,
    At (normal (canon f)) (volume (normal (canon f))) (path (normal (canon f))) (volume (normal (canon f))) st ∧ st.links = 0 ∧
    realpath S E result size (f ++ 0 :: rest) = (do
      let o ← loop S E (21 * 8192 + 1) st
      match o with
      | none => .ok (false, result)
      | some st => give S E st result size) := by
  have hacc := hf.accepted E.sgn (by omega)
  obtain ⟨ok, r, h1, h2, h3⟩ := get_ok E.sgn E.reg f rest E.f2 hf.fit.usable hE.f2
  obtain rfl := h2.2 hacc
  rw [hf.fit.normal] at h3
  have hz := Verif.WinAbs.normal_zero (Verif.WinAbs.canon_zero hf.fit.1)
  rw [hf.fit.normal] at hz
  obtain ⟨st, k1, k2, k3⟩ := start_ok (normal (canon f)) (E.f2.drop ((normal (canon f)).length + 1)) E.f3 0 hz hu hE.f3
    (by simp [hE.f2]; omega) (fine_ascii hf)
  refine ⟨st, k2, k3, ?_⟩
  unfold realpath
  rw [h1, ok_bind]
  dsimp only [Bool.not_true]
  rw [if_neg (by decide), h3 rfl, k1, ok_bind]
  rfl

/-- C112 (partial): on a path without links the result is the name with every component replaced by the name of the entry found; it is given exactly
if it fits, and the call returns true exactly if the given name exists.
Missing: paths with links (`win_realpath_relative_link`), paths of more than 8180 bytes on the way (`win_realpath_overrun`), and names in which other characters than ASCII
occur, which are refused where `char` is signed (C84). -/
theorem win_realpath_partial (S : Sys) (E : Env) (hE : E.Good) (result f rest r : List Nat) (size : Nat) (hs : size ≤ result.length) (hf : Fine f)
    (hu : uni <+: normal (canon f)) (hl : (normal (canon f)).length ≤ 8180)
    (hwk : Walk S (volume (normal (canon f))) (comps (path (normal (canon f)))) r) (hroom : Room r)
    (htr : trail (path (normal (canon f))) = [92] → Room (r ++ [92]) ∧ S.find (text 2 (r ++ [92])) = none) :
    ∃ b res, realpath S E result size (f ++ 0 :: rest) = .ok (b, res) ∧ res.length = result.length ∧
      (size < (text 1 (r ++ trail (path (normal (canon f))))).length + 1 → b = false ∧ res = result) ∧
      ((text 1 (r ++ trail (path (normal (canon f))))).length + 1 ≤ size →
        Holds res (text 1 (r ++ trail (path (normal (canon f))))) ∧
        (b = true ↔ Accepted E.sgn (text 1 (r ++ trail (path (normal (canon f))))) ∧
          ∃ w, Wide (text 1 (r ++ trail (path (normal (canon f))))) w ∧ (S.attrs w).isSome)) := by
  obtain ⟨st, h1, h2, h3⟩ := realpath_start S E hE result f rest size hf hu hl
  generalize hn : normal (canon f) = n at *
  have hna : ∀ c ∈ n, c < 0x80 := by rw [← hn]; exact fine_ascii hf
  have hz : 0 ∉ n := by
    have := Verif.WinAbs.normal_zero (Verif.WinAbs.canon_zero hf.fit.1)
    rwa [hf.fit.normal, hn] at this
  have hpl : (path n).length ≤ n.length := by unfold path; simp
  have hpa : ∀ d ∈ path n, 0 < d ∧ d < 0x80 := by
    intro d hd
    have hm : d ∈ n := List.mem_of_mem_drop hd
    exact ⟨Nat.pos_of_ne_zero (fun e => hz (e ▸ hm)), hna d hm⟩
  obtain ⟨st', k1, k2⟩ := loop_ok S E hE.wide (n := n) (r := r) _ _ _ _ st (21 * 8192 + 1) (Nat.le_refl _) (by omega) h1 hpa hwk htr
  have hvs : ∃ vs rs, Verif.WinAbs.Split n vs rs := by
    rcases normal_forms (canon f) with h | ⟨h, h', _⟩
    · rwa [hf.fit.normal, hn] at h
    · rw [hf.fit.normal, hn] at h
      rw [h] at hu
      exact absurd hu h'
  obtain ⟨vs, rs, hsp⟩ := hvs
  obtain ⟨_, hvol, _⟩ := split_volume hsp
  obtain ⟨t, ht⟩ := walk_prefix hwk
  have hva : text 1 (volume n) = volume n := by
    refine text_ascii (fun c hc => ?_)
    have : c ∈ volume n ++ path n := List.mem_append_left _ hc
    rw [← h1.split] at this
    exact hna c this
  have hout : text 1 (r ++ trail (path n)) = sw (join vs) ++ text 1 (t ++ trail (path n)) := by
    rw [← ht, List.append_assoc, text_append, hva, hvol]
  have hlen : (text 1 (r ++ trail (path n))).length ≤ 8180 := by
    by_cases h : trail (path n) = [92]
    · rw [h]; exact (htr h).1
    · have : trail (path n) = [] := by
        unfold trail at h ⊢
        split at h
        · exact absurd rfl h
        · next h' => rw [if_neg h']
      rw [this, List.append_nil]; exact hroom
  have hfit : Fit (text 1 (r ++ trail (path n))) := by
    have h0 := k2.whole.zero
    rw [hout] at h0 hlen ⊢
    exact fit_rooted hsp.1 _ h0 (by omega)
  rw [h3, k1, ok_bind]
  exact give_ok S E hE.junk hE.wide k2 result size hs (by omega) hfit

end Verif.WinReal
