import Verif.WinAppInfo.Model
import Verif.WinAppInfo.Spec
import Verif.Utf8.Props

/-!
# Lemmas for the Windows storage directories
-/

namespace Verif.WinAppInfo
open Spec

theorem wr_take {b : List Nat} {z : Nat} (v : Nat) (h : z < b.length) :
    wr b z v = .ok (b.set z v) ∧ (b.set z v).take (z + 1) = b.take z ++ [v] ∧ (b.set z v).length = b.length := by
  refine ⟨wr_ok v h, ?_, by simp⟩
  rw [List.take_add_one, List.getElem?_set_self h, List.take_set_of_le (Nat.le_refl z)]
  rfl

/-- A write at the end of the string written so far. -/
theorem append_ok (z2 : Nat) : ∀ (s : List Nat) (z : Nat) (b : List Nat), z ≤ z2 → z2 ≤ b.length →
    ∃ b', append z2 s z b = .ok (min z2 (z + s.length), b') ∧ b'.length = b.length ∧
      b'.take (min z2 (z + s.length)) = (b.take z ++ s).take z2
  | [], z, b, h, _ => by
    refine ⟨b, by simp [append, Nat.min_eq_right h], rfl, ?_⟩
    rw [List.length_nil, Nat.add_zero, Nat.min_eq_right h, List.append_nil, List.take_take, Nat.min_eq_right h]
  | c :: s, z, b, h, hb => by
    rw [append]
    by_cases hz : z < z2
    · obtain ⟨h1, h2, h3⟩ := wr_take c (show z < b.length by omega)
      rw [if_pos hz, h1, ok_bind]
      obtain ⟨b', g1, g2, g3⟩ := append_ok z2 s (z + 1) (b.set z c) (by omega) (by omega)
      rw [show z + (c :: s).length = z + 1 + s.length by simp; omega]
      refine ⟨b', g1, by omega, ?_⟩
      rw [g3, h2]
      simp
    · have : z = z2 := by omega
      subst this
      rw [if_neg hz]
      refine ⟨b, by rw [Nat.min_eq_left (by omega)], rfl, ?_⟩
      rw [Nat.min_eq_left (by omega), List.take_append_of_le_length (by rw [List.length_take]; omega), List.take_take, Nat.min_self]

theorem slash_ok (z2 z : Nat) (b s : List Nat) (hz : z ≤ z2) (hb : z2 ≤ b.length) (hs : b.take z = s.take z2)
    (hl : z = min z2 s.length) (hne : s ≠ []) :
    ∃ b', slash b z z2 = .ok (min z2 (dirName s).length, b') ∧ b'.length = b.length ∧
      b'.take (min z2 (dirName s).length) = (dirName s).take z2 := by
  have hpos : 0 < s.length := List.length_pos_iff.2 hne
  have hge : s.length ≤ (dirName s).length := by unfold dirName; split <;> simp
  unfold slash
  by_cases hlt : z < z2
  · rw [if_pos hlt]
    have hzs : z = s.length := by omega
    have hts : s.take z2 = s := List.take_of_length_le (by omega)
    rw [hts] at hs
    cases z with
    | zero => omega
    | succ k =>
      dsimp only
      have hk : k < b.length := by omega
      have hc : s.getLast? = some b[k] := by
        rw [List.getLast?_eq_getElem?, ← hzs, ← hs, List.getElem?_take, if_pos (by omega)]
        simp [hk]
      rw [rd_ok hk, ok_bind]
      unfold dirName
      rw [hc]
      by_cases h92 : b[k] = 92
      · rw [if_neg (by simpa using h92), if_pos (by rw [h92]), Nat.min_eq_right (by omega), ← hzs]
        exact ⟨b, rfl, rfl, by rw [hs, hts]⟩
      · obtain ⟨g1, g2, g3⟩ := wr_take 92 (show k + 1 < b.length by omega)
        rw [if_pos h92, if_neg (by simpa using h92), g1, ok_bind]
        have hlen : (s ++ [92]).length = k + 2 := by simp; omega
        rw [hlen, Nat.min_eq_right (by omega)]
        refine ⟨_, rfl, g3, ?_⟩
        rw [g2, hs, List.take_of_length_le (by omega)]
  · have : z = z2 := by omega
    subst this
    rw [if_neg hlt, Nat.min_eq_left (by omega)]
    refine ⟨b, rfl, rfl, ?_⟩
    rw [hs]
    unfold dirName
    split
    · rfl
    · rw [List.take_append_of_le_length (by omega)]

theorem dirName_ne (s : List Nat) : dirName s ≠ [] := by
  unfold dirName
  split
  · next h => intro e; subst e; cases h
  · simp

theorem finish_ok (b base : List Nat) (app : Option (List Nat)) (z2 : Nat) (hb : z2 ≤ b.length)
    (hs : b.take base.length = base) (hz : base.length ≤ z2) (hne : base ≠ []) :
    Delivers z2 b (appDir base app) (finish b app base.length z2) := by
  -- the terminator
  have last : ∀ (p b1 : List Nat), b1.length = b.length → b1.take (min z2 p.length) = p.take z2 →
      Delivers z2 b p (do
        let (z, b) ← (if min z2 p.length < z2 then do
            let b ← wr b1 (min z2 p.length) 0
            .ok (min z2 p.length + 1, b)
          else .ok (min z2 p.length, b1) : CRes (Nat × List Nat))
        if z = z2 then .ok (false, 0, b) else .ok (true, z, b)) := by
    intro p b1 h1 h2
    by_cases hlt : p.length < z2
    · rw [Nat.min_eq_right (by omega)] at h2 ⊢
      obtain ⟨g1, g2, g3⟩ := wr_take 0 (show p.length < b1.length by omega)
      rw [if_pos hlt, g1, ok_bind, ok_bind]
      dsimp only
      by_cases he : p.length + 1 = z2
      · rw [if_pos he]
        exact ⟨_, _, _, rfl, by omega, ⟨(fun h => nomatch h), fun h => by omega⟩, (fun h => nomatch h), fun _ => rfl⟩
      · rw [if_neg he]
        refine ⟨_, _, _, rfl, by omega, ⟨fun _ => by omega, fun _ => rfl⟩, fun _ => ⟨rfl, ?_⟩, (fun h => nomatch h)⟩
        refine ⟨(b1.set p.length 0).drop (p.length + 1), ?_⟩
        have := List.take_append_drop (p.length + 1) (b1.set p.length 0)
        rw [g2, h2, List.take_of_length_le (by omega)] at this
        simpa using this.symm
    · rw [Nat.min_eq_left (by omega), if_neg (by omega), ok_bind]
      dsimp only
      rw [if_pos rfl]
      exact ⟨_, _, _, rfl, h1, ⟨(fun h => nomatch h), fun h => by omega⟩, (fun h => nomatch h), fun _ => rfl⟩
  unfold finish
  obtain ⟨b1, g1, g2, g3⟩ := slash_ok z2 base.length b base hz hb (by rw [hs, List.take_of_length_le hz])
    (Nat.min_eq_right hz).symm hne
  rw [g1, ok_bind]
  dsimp only
  cases app with
  | none =>
    simp only [addApp, ok_bind, appDir]
    exact last (dirName base) b1 g2 g3
  | some a =>
    unfold addApp appDir
    dsimp only
    obtain ⟨b3, m1, m2, m3⟩ := append_ok z2 a (min z2 (dirName base).length) b1 (Nat.min_le_left ..) (by omega)
    rw [m1, ok_bind]
    dsimp only
    have e3 : min z2 (min z2 (dirName base).length + a.length) = min z2 (dirName base ++ a).length := by
      rw [List.length_append (as := dirName base)]; omega
    rw [e3] at m3 ⊢
    rw [g3] at m3
    have m3 : b3.take (min z2 (dirName base ++ a).length) = (dirName base ++ a).take z2 := by
      rw [m3, List.take_append, List.take_take, Nat.min_self, List.take_append (l₁ := dirName base), List.length_take]
      by_cases h : z2 ≤ (dirName base).length
      · rw [Nat.min_eq_left h, show z2 - (dirName base).length = 0 by omega, Nat.sub_self]
      · rw [Nat.min_eq_right (by omega)]
    have hne3 : dirName base ++ a ≠ [] := by
      have := dirName_ne base
      simp [this]
    obtain ⟨b4, n1, n2, n3⟩ := slash_ok z2 _ b3 (dirName base ++ a) (Nat.min_le_left ..) (by omega) m3 rfl hne3
    rw [n1, ok_bind]
    exact last _ b4 (by omega) n3

theorem clear_ok (b : List Nat) (z2 : Nat) (h : z2 ≤ b.length) : ∃ b', clear b z2 = .ok b' ∧ b'.length = b.length := by
  unfold clear
  split
  · next h0 => exact ⟨_, (wr_take 0 (show 0 < b.length by omega)).1, by simp⟩
  · exact ⟨b, rfl, rfl⟩


open Utf8 Utf8.Spec

theorem enc8_small {c : Nat} (h : c < 0x800) : (enc8 c).length ≤ 2 := by
  unfold enc8
  split <;> simp

/-- Characters of one or two bytes that do not all fit leave at most one byte free. -/
theorem push_small (max : Nat) : ∀ (L b : List Nat) (n : Nat), n ≤ max → max ≤ b.length →
    (∀ c ∈ L, Valid c ∧ c < 0x800) → (n = 0 → ∀ c, L.head? = some c → ¬ Combining c) →
    max < n + (text 1 L).length →
    ∃ kept : List Nat, kept.Sublist L ∧ n + (text 1 kept).length ≤ max ∧ max ≤ n + (text 1 kept).length + 1 ∧
      pushAll L ⟨some b, n⟩ max = .ok (stored b n (text 1 kept))
  | [], b, n, h1, _, _, _, h => by
    simp [text] at h
    omega
  | c :: L, b, n, h1, hb, hL, hh, h => by
    by_cases hr : max ≤ n + 1
    · obtain ⟨kept, k1, _, _, k2, k3⟩ := pushAll_total max (c :: L) b n h1 hb
      exact ⟨kept, k1, k2, by omega, k3⟩
    · obtain ⟨hv, hs⟩ := hL c (by simp)
      have hc : ¬ (n = 0 ∧ Combining c) := fun e => hh e.1 c rfl e.2
      have hlen := enc8_small hs
      have hpos := enc8_pos c
      rw [text1_cons, List.length_append] at h
      obtain ⟨kept, k1, k2, k3, k4⟩ := push_small max L (b.take n ++ enc8 c ++ b.drop (n + (enc8 c).length))
        (n + (enc8 c).length) (by omega) (by rw [stored_len _ _ _ (by omega)]; exact hb)
        (fun e he => hL e (by simp [he])) (fun e => by omega) (by omega)
      refine ⟨c :: kept, k1.cons_cons _, ?_, ?_, ?_⟩
      · rw [text1_cons, List.length_append]; omega
      · rw [text1_cons, List.length_append]; omega
      · rw [pushAll, appendUTF8_valid _ _ hv hc, store_fit _ _ _ _ (enc8_ne c) (by omega) hb, ok_bind]
        simp only
        rw [k4, text1_cons, stored_stored _ _ _ _ (by omega)]

/-- The conversion of a path that begins with an ASCII character, into a buffer that is not empty. -/
theorem convert_path (cps b : List Nat) (max : Nat) (hp : PathText cps) (hb : max ≤ b.length) (h0 : 0 < max) :
    ∃ (kept : List Nat) (lp' : Option Nat), kept.Sublist cps ∧ kept ≠ [] ∧ (text 1 kept).length ≤ max ∧
      convertTo (text 2 cps) 2 (some b) max none =
        .ok (⟨some (text 1 kept ++ b.drop (text 1 kept).length), (text 1 kept).length⟩, lp') ∧
      ((text 1 cps).length ≤ max → kept = cps) ∧
      ((∀ c ∈ cps, c < 0x800) → max < (text 1 cps).length → max ≤ (text 1 kept).length + 1) := by
  obtain ⟨hg, c, hc, ha⟩ := hp
  have hcv := convertTo_push (text 2 cps) 2 (some b) max none
  rw [codes_text 2 (by simp) cps hg.1] at hcv
  cases cps with
  | nil => cases hc
  | cons c' L =>
    simp only [List.head?_cons, Option.some.injEq] at hc
    subst hc
    have h1 : enc8 c' = [c'] := by unfold enc8; rw [if_pos ha]
    have hv := hg.1 c' (by simp)
    have hL : ∀ e ∈ L, Valid e := fun e he => hg.1 e (by simp [he])
    have hcc : ¬ (0 = 0 ∧ Combining c') := fun e => hg.2 c' rfl e.2
    have hlen : ([] ++ [c'] ++ b.drop 1).length = b.length := by simp; omega
    have step : ∀ kept : List Nat,
        pushAll L ⟨some ([] ++ [c'] ++ b.drop 1), 1⟩ max = .ok (stored ([] ++ [c'] ++ b.drop 1) 1 (text 1 kept)) →
        1 + (text 1 kept).length ≤ max →
        ∃ lp', convertTo (text 2 (c' :: L)) 2 (some b) max none =
          .ok (⟨some (text 1 (c' :: kept) ++ b.drop (text 1 (c' :: kept)).length), (text 1 (c' :: kept)).length⟩, lp') := by
      intro kept hk hle
      refine hcv _ ?_
      rw [pushAll, appendUTF8_valid _ _ hv hcc, store_fit _ _ _ _ (enc8_ne c') (by rw [h1]; simp; omega) hb, ok_bind]
      simp only [h1, List.length_singleton, List.take_zero, Nat.zero_add]
      have := stored_stored b 0 [c'] (text 1 kept) (by simp; omega)
      simp only [List.length_singleton, List.take_zero, Nat.zero_add] at this
      rw [hk, this, stored_zero, text1_cons, h1]
    have hl : ∀ K, (text 1 (c' :: K)).length = 1 + (text 1 K).length := by
      intro K; rw [text1_cons, h1, List.length_append, List.length_singleton]
    by_cases hf : (text 1 (c' :: L)).length ≤ max
    · have e : accepted 1 L = L := by
        unfold accepted
        rw [if_neg (by omega), List.filter_eq_self.2 (fun e he => by simpa using hL e he)]
      rw [hl] at hf
      have hp := pushAll_fit max L ([] ++ [c'] ++ b.drop 1) 1 (by rw [e]; omega) (by omega)
      rw [e] at hp
      obtain ⟨lp', h⟩ := step L hp hf
      exact ⟨_, lp', List.Sublist.refl _, (fun e => nomatch e), by rw [hl]; omega, h, fun _ => rfl,
        fun _ h => by rw [hl] at h; omega⟩
    · by_cases hs : ∀ e ∈ c' :: L, e < 0x800
      · rw [hl] at hf
        obtain ⟨kept, k1, k2, k3, k4⟩ := push_small max L ([] ++ [c'] ++ b.drop 1) 1 (by omega) (by omega)
          (fun e he => ⟨hL e he, hs e (by simp [he])⟩) (fun e => nomatch e) (by omega)
        obtain ⟨lp', h⟩ := step kept k4 k2
        refine ⟨_, lp', k1.cons_cons _, (fun e => nomatch e), by rw [hl]; omega, h, ?_, ?_⟩
        · intro h; rw [hl] at h; omega
        · intro _ _; rw [hl]; omega
      · obtain ⟨kept, k1, _, _, k2, k4⟩ := pushAll_total max L ([] ++ [c'] ++ b.drop 1) 1 (by omega) (by omega)
        obtain ⟨lp', h⟩ := step kept k4 k2
        exact ⟨_, lp', k1.cons_cons _, (fun e => nomatch e), by rw [hl]; omega, h, fun h => absurd h hf,
          fun h => absurd h hs⟩

/-- An ASCII text longer than the buffer runs over its end if the limit allows it. -/
theorem toLoop2_over (src : List Nat) (max : Nat) (hs : src.length ≤ max) (ha : ∀ c ∈ src, c < 0x80) :
    ∀ (k x : Nat) (b : List Nat) (lp : Option Nat), src.length < x + k → x ≤ b.length → b.length < src.length →
    toLoop2 src max k x ⟨some b, x⟩ lp = .error .oobWrite
  | 0, x, b, lp, h1, h2, h3 => by omega
  | k + 1, x, b, lp, h1, h2, h3 => by
    have hx : x < src.length := by omega
    have hc := ha src[x] (List.getElem_mem hx)
    rw [toLoop2, if_pos hx, rd_ok hx, ok_bind]
    generalize src[x] = c at hc ⊢
    have hv : Valid c := by unfold Valid; omega
    have hcc : ¬ (x = 0 ∧ Combining c) := by unfold Combining; omega
    have he : enc8 c = [c] := by unfold enc8; rw [if_pos hc]
    rw [if_pos (by omega), appendUTF8_valid _ _ hv hcc, he]
    unfold store
    dsimp only
    rw [if_neg (by simp; omega)]
    simp only [put]
    by_cases hn : x < b.length
    · rw [wr_ok _ hn]
      simp only [ok_bind, List.length_singleton]
      exact toLoop2_over src max hs ha k (x + 1) (b.set x c) _ (by omega) (by simp; omega) (by simp; omega)
    · unfold wr
      rw [if_neg hn]
      rfl

end Verif.WinAppInfo
