import Verif.WinReal.Spec
import Verif.WinOps.PropsTimes

/-!
# One round of the loop of `Realpath`
-/

namespace Verif.WinReal
open Spec
open Verif.Utf8.Spec
open Verif.WinOps (text_append text_ascii enc8_ascii enc8_big ascii_valid widen widen_ok)
open Verif.WinPath.Spec (pieces)
open Verif.WinAbs.Spec (comps)
open Verif.WinPath (rd_in pieces_append pieces_cons)

/-- A path inside the buffers: text without zeros that begins with a backslash. -/
def Whole (p : List Nat) : Prop := (∀ c ∈ p, Valid c ∧ c ≠ 0) ∧ p.head? = some 92

theorem Whole.good {p : List Nat} (h : Whole p) : GoodText p := by
  refine ⟨fun c hc => (h.1 c hc).1, ?_⟩
  intro c hc
  rw [h.2] at hc
  cases hc
  decide

theorem text1_nozero : ∀ {p : List Nat}, (∀ c ∈ p, Valid c ∧ c ≠ 0) → 0 ∉ text 1 p
  | [], _ => by simp [text]
  | c :: p, h => by
    rw [Utf8.text1_cons, List.mem_append, not_or]
    refine ⟨?_, text1_nozero (fun d hd => h d (List.mem_cons_of_mem _ hd))⟩
    intro hm
    by_cases hc : c < 0x80
    · rw [enc8_ascii hc] at hm
      have := (h c List.mem_cons_self).2
      simp at hm
      omega
    · have := enc8_big hc 0 hm
      omega

theorem Whole.zero {p : List Nat} (h : Whole p) : 0 ∉ text 1 p := text1_nozero h.1

theorem Whole.more {p c : List Nat} (h : Whole p) (hc : ∀ d ∈ c, Valid d ∧ d ≠ 0) : Whole (p ++ 92 :: c) := by
  refine ⟨?_, ?_⟩
  · intro d hd
    rcases List.mem_append.1 hd with hd | hd
    · exact h.1 d hd
    · rcases List.mem_cons.1 hd with rfl | hd
      · exact ⟨ascii_valid (by decide), by decide⟩
      · exact hc d hd
  · cases p with
    | nil => exact absurd h.2 (by simp)
    | cons b p => exact h.2

theorem ascii_word {c : List Nat} (h : ∀ d ∈ c, 0 < d ∧ d < 0x80) : ∀ d ∈ c, Valid d ∧ d ≠ 0 := fun d hd =>
  ⟨ascii_valid (h d hd).2, by have := (h d hd).1; omega⟩

theorem skip_ok (pre t tl : List Nat) (ht : t.head? ≠ some 92) : ∀ (j k x : Nat) (a : List Nat), k = j + t.length → x = a.length →
    a = pre → skip (a ++ (List.replicate j 92 ++ t) ++ 0 :: tl) k x = .ok (x + j)
  | 0, k, x, a, hk, hx, ha => by
    subst ha
    cases t with
    | nil => subst hk; simp [skip]
    | cons c t =>
      subst hk
      rw [show 0 + (c :: t).length = t.length + 1 by simp, skip, List.append_assoc, hx,
        show rd (a ++ (List.replicate 0 92 ++ c :: t ++ 0 :: tl)) a.length = .ok c by simp [rd], ok_bind, if_neg]
      · rfl
      · intro e; exact ht (by rw [e]; rfl)
  | j + 1, k, x, a, hk, hx, ha => by
    subst ha
    rw [hk, show j + 1 + t.length = (j + t.length) + 1 by omega, skip, hx]
    have e : a ++ (List.replicate (j + 1) 92 ++ t) ++ 0 :: tl = (a ++ [92]) ++ (List.replicate j 92 ++ t) ++ 0 :: tl := by
      simp [List.replicate_succ]
    rw [e, show rd ((a ++ [92]) ++ (List.replicate j 92 ++ t) ++ 0 :: tl) a.length = .ok 92 by simp [rd], ok_bind, if_pos rfl,
      skip_ok (a ++ [92]) t tl ht j _ (a.length + 1) (a ++ [92]) rfl (by simp) rfl]
    congr 1; omega

theorem copyChunk_ok (t tl : List Nat) (ht : t = [] ∨ t.head? = some 92) : ∀ (c : List Nat) (k x x2 : Nat) (a cur R : List Nat),
    92 ∉ c → k = c.length + t.length → x = a.length → x2 = cur.length → x2 + c.length ≤ 8191 → (cur ++ R).length = 8192 →
    copyChunk (a ++ (c ++ t) ++ 0 :: tl) k x x2 (cur ++ R) = .ok (some (x + c.length, x2 + c.length, cur ++ c ++ R.drop c.length))
  | [], k, x, x2, a, cur, R, _, hk, hx, hx2, _, _ => by
    cases t with
    | nil => subst hk; simp [copyChunk]
    | cons d t =>
      have hd : d = 92 := by
        rcases ht with ht | ht
        · cases ht
        · exact Option.some.inj ht
      subst hk hx
      rw [show ([] : List Nat).length + (d :: t).length = t.length + 1 by simp, copyChunk, List.append_assoc,
        show rd (a ++ (([] : List Nat) ++ d :: t ++ 0 :: tl)) a.length = .ok d by simp [rd], ok_bind, if_pos hd]
      simp
  | d :: c, k, x, x2, a, cur, R, h9, hk, hx, hx2, hl, hb => by
    have hd : d ≠ 92 := fun e => h9 (by simp [e])
    rw [List.length_cons] at hl
    rw [hk, List.length_cons, show c.length + 1 + t.length = (c.length + t.length) + 1 by omega, copyChunk]
    have e : a ++ (d :: c ++ t) ++ 0 :: tl = (a ++ [d]) ++ (c ++ t) ++ 0 :: tl := by simp
    rw [e, show rd ((a ++ [d]) ++ (c ++ t) ++ 0 :: tl) x = .ok d by simp [rd, hx], ok_bind, if_neg hd, if_neg (by omega)]
    cases R with
    | nil => simp at hb; omega
    | cons y R =>
      rw [wr_append' cur R y d x2 hx2, ok_bind, show cur ++ d :: R = (cur ++ [d]) ++ R by simp,
        copyChunk_ok t tl ht c _ (x + 1) (x2 + 1) (a ++ [d]) (cur ++ [d]) R (fun h => h9 (List.mem_cons_of_mem _ h)) rfl
          (by simp [hx]) (by simp [hx2]) (by omega) (by simpa using hb)]
      simp
      omega

theorem wideOf_ok (E : Env) (hw : E.wide.length = 8192) {p : List Nat} (hp : Whole p) (R : List Nat) (x2 : Nat)
    (hx : x2 = (text 1 p).length) (hl : x2 + 1 ≤ 8192) : wideOf E (text 1 p ++ 0 :: R) x2 = .ok (text 2 p) := by
  have h := widen_ok (opsEnv E) hw hp.good R hp.zero (by omega)
  rw [hx]
  exact h

theorem exchange_ok {p l : List Nat} (st : St) (R : List Nat) (hp : st.f3 = text 1 p ++ R) (hl : st.f3.length = 8192)
    (hg : GoodText l) (hr : (text 1 (p ++ l)).length ≤ 8192) : ∃ R', 
    exchange st (text 1 p).length (text 2 l) = .ok (some { st with f3 := text 1 (p ++ l) ++ R', x2 := (text 1 (p ++ l)).length }) ∧
      (text 1 (p ++ l) ++ R').length = 8192 := by
  rw [text_append, List.length_append] at hr
  rw [hp, List.length_append] at hl
  obtain ⟨lp, h⟩ := (Utf8.round_trip 2 (.inl rfl) l hg (st.f3.drop (text 1 p).length) (List.replicate (text 2 l).length 0)
    (8192 - (text 1 p).length) (text 2 l).length none (by omega) (by rw [hp, List.drop_left]; omega) (Nat.le_refl _) (by simp)).1
  refine ⟨R.drop (text 1 l).length, ?_, ?_⟩
  · unfold exchange
    rw [h, ok_bind]
    dsimp only
    rw [hp, List.take_left, List.drop_left, text_append, List.append_assoc, List.length_append,
      Nat.add_comm (text 1 l).length]
  · rw [text_append]
    simp only [List.length_append, List.length_drop]
    omega

/-! ## Components -/

theorem comps_back (s : List Nat) : comps (92 :: s) = comps s := by simp [comps, pieces]

theorem comps_backs (t : List Nat) : ∀ j, comps (List.replicate j 92 ++ t) = comps t
  | 0 => rfl
  | j + 1 => by rw [List.replicate_succ, List.cons_append, comps_back, comps_backs t j]

theorem comps_chunk {c t : List Nat} (hc : c ≠ []) (h9 : 92 ∉ c) (ht : t = [] ∨ t.head? = some 92) : comps (c ++ t) = c :: comps t := by
  rcases t with _ | ⟨d, t⟩
  · unfold comps
    rw [pieces_append c [] [] [] h9 rfl]
    cases c with
    | nil => exact absurd rfl hc
    | cons b c => simp [pieces]
  · have hd : d = 92 := by
      rcases ht with ht | ht
      · cases ht
      · exact Option.some.inj ht
    subst hd
    have e : pieces (92 :: t) = [] :: pieces t := by simp [pieces]
    rw [comps_back]
    unfold comps
    rw [pieces_append c _ [] (pieces t) h9 e]
    cases c with
    | nil => exact absurd rfl hc
    | cons b c => simp

/-- The next chunk of a path. -/
theorem chunk (s : List Nat) : ∃ j c t, s = List.replicate j 92 ++ (c ++ t) ∧ 92 ∉ c ∧ (c ++ t).head? ≠ some 92 ∧ (t = [] ∨ t.head? = some 92) ∧
    (c = [] → t = []) := by
  have e1 := List.takeWhile_append_dropWhile (p := fun c : Nat => decide (c = 92)) (l := s)
  generalize hs1 : s.takeWhile (fun c => decide (c = 92)) = s1 at e1
  generalize hs2 : s.dropWhile (fun c => decide (c = 92)) = s2 at e1
  have e2 := List.takeWhile_append_dropWhile (p := fun c : Nat => decide (c ≠ 92)) (l := s2)
  have hrep : s1 = List.replicate s1.length 92 := by
    refine List.eq_replicate_iff.2 ⟨rfl, ?_⟩
    intro b hb
    rw [← hs1] at hb
    simpa using List.mem_takeWhile_imp hb
  have hh : s2.head? ≠ some 92 := by
    intro h
    rw [← hs2] at h
    have := List.head?_dropWhile_not (fun c : Nat => decide (c = 92)) s
    rw [h] at this
    simp at this
  refine ⟨s1.length, s2.takeWhile (fun c => decide (c ≠ 92)), s2.dropWhile (fun c => decide (c ≠ 92)), ?_, ?_, ?_, ?_, ?_⟩
  · rw [e2, ← hrep, e1]
  · intro h
    have := List.mem_takeWhile_imp h
    simp at this
  · rw [e2]; exact hh
  · cases h : s2.dropWhile (fun c => decide (c ≠ 92)) with
    | nil => exact .inl rfl
    | cons d t =>
      right
      have := List.head?_dropWhile_not (fun c : Nat => decide (c ≠ 92)) s2
      rw [h] at this
      simp at this
      simp [this]
  · intro hc
    rw [hc, List.nil_append] at e2
    rw [e2]
    cases s2 with
    | nil => rfl
    | cons d t =>
      exfalso
      rw [List.takeWhile_cons] at hc
      split at hc
      · cases hc
      · next h =>
        apply hh
        simp at h
        simp [h]

/-! ## A round -/

/-- The state between rounds: `p` is the path so far, `rem` what is left of the name. -/
structure At (n pre rem p : List Nat) (st : St) : Prop where
  name : ∃ tl, st.f2 = n ++ 0 :: tl
  split : n = pre ++ rem
  sp : st.sp = pre.length
  len : st.len = n.length
  whole : Whole p
  buf : ∃ R, st.f3 = text 1 p ++ R
  size : st.f3.length = 8192
  x2 : st.x2 = (text 1 p).length
  room : st.f2.length = 8192

/-- A round up to the question to the system. -/
theorem step_ask (S : Sys) (E : Env) (hw : E.wide.length = 8192) {n pre p c t : List Nat} {j : Nat} {st : St}
    (h : At n pre (List.replicate j 92 ++ (c ++ t)) p st) (h9 : 92 ∉ c) (hh : (c ++ t).head? ≠ some 92)
    (ht : t = [] ∨ t.head? = some 92) (hc : ∀ d ∈ c, 0 < d ∧ d < 0x80) (hr : (text 1 (p ++ 92 :: c)).length ≤ 8191) :
    ∃ f3 R, f3 = text 1 (p ++ 92 :: c) ++ 0 :: R ∧ f3.length = 8192 ∧
      step S E st = match S.find (text 2 (p ++ 92 :: c)) with
        | none => .ok (some { st with sp := pre.length + j + c.length, f3 := f3, x2 := (text 1 (p ++ 92 :: c)).length })
        | some e => found S E { st with sp := pre.length + j + c.length, f3 := f3, x2 := (text 1 (p ++ 92 :: c)).length }
            (text 1 (p ++ [92])).length (text 2 (p ++ 92 :: c)) e := by
  obtain ⟨⟨tl, hf2⟩, hn, hsp, hlen, hp, ⟨R, hf3⟩, hsz, hx2, _⟩ := h
  have htc : text 1 c = c := text_ascii (fun d hd => (hc d hd).2)
  have htx : text 1 (p ++ 92 :: c) = text 1 p ++ 92 :: c := by
    rw [text_append, Utf8.text1_cons, htc]; rfl
  have hlx : (text 1 (p ++ [92])).length = (text 1 p).length + 1 := by rw [text_append]; simp [text, enc, enc8]
  rw [htx, List.length_append, List.length_cons] at hr
  rw [hf3, List.length_append] at hsz
  cases R with
  | nil => simp at hsz; omega
  | cons y R =>
    rw [List.length_cons] at hsz
    have hlr : c.length < R.length := by omega
    have hRd : ∃ z R2, R.drop c.length = z :: R2 := by
      cases hd : R.drop c.length with
      | nil => rw [List.drop_eq_nil_iff] at hd; omega
      | cons z R2 => exact ⟨z, R2, rfl⟩
    obtain ⟨z, R2, hz⟩ := hRd
    have hlR2 : R2.length + 1 + c.length = R.length := by
      have := congrArg List.length hz
      simp at this
      omega
    refine ⟨text 1 (p ++ 92 :: c) ++ 0 :: R2, R2, rfl, by rw [htx]; simp; omega, ?_⟩
    unfold step
    rw [if_neg (by omega), hf3, wr_append' _ R y 92 _ hx2, ok_bind]
    dsimp only
    have hsub : st.len - st.sp = j + (c ++ t).length := by
      rw [hlen, hsp, hn]; simp
    rw [hf2, hn, hsub, skip_ok pre (c ++ t) tl hh j _ _ pre rfl hsp rfl, ok_bind]
    have hsub2 : st.len - (st.sp + j) = c.length + t.length := by
      rw [hlen, hsp, hn]; simp; omega
    have e1 : pre ++ (List.replicate j 92 ++ (c ++ t)) ++ 0 :: tl = (pre ++ List.replicate j 92) ++ (c ++ t) ++ 0 :: tl := by simp
    have e2 : text 1 p ++ 92 :: R = (text 1 p ++ [92]) ++ R := by simp
    rw [hsub2, e1, e2, copyChunk_ok t tl ht c _ _ _ (pre ++ List.replicate j 92) (text 1 p ++ [92]) R h9 rfl (by simp [hsp])
      (by simp [hx2]) (by omega) (by simp; omega), ok_bind]
    dsimp only
    rw [hz, wr_append' _ R2 z 0 _ (by simp [hx2]; omega), ok_bind]
    have e3 : text 1 p ++ [92] ++ c = text 1 (p ++ 92 :: c) := by rw [htx]; simp
    have e4 : st.x2 + 1 + c.length = (text 1 (p ++ 92 :: c)).length := by rw [htx, hx2]; simp; omega
    rw [e3, e4, wideOf_ok E hw (hp.more (ascii_word hc)) R2 _ rfl (by rw [htx]; simp; omega), ok_bind, hlx, hx2, hsp]
    cases S.find (text 2 (p ++ 92 :: c)) with
    | none => rfl
    | some e => rfl

/-- The state after a round. -/
theorem At.next {n pre p c t l f3 R : List Nat} {j : Nat} {st : St} (h : At n pre (List.replicate j 92 ++ (c ++ t)) p st)
    (hl : ∀ d ∈ l, Valid d ∧ d ≠ 0) (hf : f3 = text 1 (p ++ 92 :: l) ++ R) (hs : f3.length = 8192) :
    At n (pre ++ List.replicate j 92 ++ c) t (p ++ 92 :: l)
      { st with sp := pre.length + j + c.length, f3 := f3, x2 := (text 1 (p ++ 92 :: l)).length } :=
  ⟨h.name, by rw [h.split]; simp, by simp; omega, h.len, h.whole.more hl, ⟨R, hf⟩, hs, rfl, h.room⟩

theorem trail_next {c t : List Nat} {j : Nat} (hc : c ≠ []) (h9 : 92 ∉ c) : trail (List.replicate j 92 ++ (c ++ t)) = trail t := by
  unfold trail
  rcases List.eq_nil_or_concat t with rfl | ⟨t', d, rfl⟩
  · rw [List.append_nil, List.getLast?_append_of_ne_nil _ hc]
    rw [if_neg, if_neg (by simp)]
    intro h
    exact h9 (List.mem_of_getLast? h)
  · simp

theorem trail_all {j : Nat} (hj : j ≠ 0) : trail (List.replicate j 92) = [92] := by
  unfold trail
  rw [if_pos]
  cases j with
  | zero => exact absurd rfl hj
  | succ j => rw [List.replicate_succ']; simp

/-- The loop without links. -/
theorem loop_ok (S : Sys) (E : Env) (hw : E.wide.length = 8192) {n r : List Nat} :
    ∀ (m : Nat) (pre rem p : List Nat) (st : St) (k : Nat), rem.length ≤ m → rem.length < k → At n pre rem p st →
      (∀ d ∈ rem, 0 < d ∧ d < 0x80) → Walk S p (comps rem) r →
      (trail rem = [92] → Room (r ++ [92]) ∧ S.find (text 2 (r ++ [92])) = none) →
      ∃ st', loop S E k st = .ok (some st') ∧ At n n [] (r ++ trail rem) st' := by
  intro m
  induction m with
  | zero =>
    intro pre rem p st k hm hk h ha hwalk _
    have : rem = [] := List.length_eq_zero_iff.1 (by omega)
    subst this
    cases k with
    | zero => simp at hk
    | succ k =>
      cases hwalk with
      | nil =>
        refine ⟨st, ?_, ?_⟩
        · rw [loop, if_neg]
          have h1 := h.sp; have h2 := h.len; have h3 := h.split
          rw [h1, h2, h3]; simp
        · have h3 := h.split
          rw [List.append_nil] at h3
          subst h3
          simpa [trail] using h
  | succ m ih =>
    intro pre rem p st k hm hk h ha hwalk htr
    cases k with
    | zero => simp at hk
    | succ k =>
      by_cases hrem : rem = []
      · subst hrem
        exact ih pre [] p st (k + 1) (by simp) hk h ha hwalk htr
      · obtain ⟨j, c, t, e, h9, hh, ht, hct⟩ := chunk rem
        subst e
        have hlt : st.sp < st.len := by
          have h1 := h.sp; have h2 := h.len; have h3 := h.split
          have := List.length_pos_of_ne_nil hrem
          rw [h1, h2, h3, List.length_append]
          omega
        have hca : ∀ d ∈ c, 0 < d ∧ d < 0x80 := fun d hd => ha d (by simp [hd])
        have hta : ∀ d ∈ t, 0 < d ∧ d < 0x80 := fun d hd => ha d (by simp [hd])
        rw [loop, if_pos hlt]
        rw [comps_backs] at hwalk
        simp only [List.length_append, List.length_replicate] at hm hk
        by_cases hc : c = []
        · obtain rfl := hct hc
          subst hc
          cases hwalk with
          | nil =>
            simp only [List.append_nil] at hrem htr h ⊢
            have hj : j ≠ 0 := fun e => hrem (by simp [e])
            rw [trail_all hj] at htr ⊢
            obtain ⟨hr, hf⟩ := htr rfl
            have h' : At n pre (List.replicate j 92 ++ (([] : List Nat) ++ [])) r st := by simpa using h
            obtain ⟨f3, R, e1, e2, e3⟩ := step_ask S E hw h' h9 hh ht hca (by unfold Room at hr; omega)
            rw [e3, hf, ok_bind]
            dsimp only
            have hn := h'.next (l := []) (by simp) e1 e2
            have hsp := hn.sp; have hln := hn.len; have hspl := hn.split
            have hn' := hn
            rw [List.append_nil] at hspl
            rw [← hspl] at hn'
            refine ⟨_, ?_, hn'⟩
            cases k with
            | zero => simp at hk; omega
            | succ k =>
              rw [loop, if_neg]
              rw [hsp, hln, ← hspl]
              simp
        · rw [comps_chunk hc h9 ht] at hwalk
          rw [trail_next hc h9] at htr ⊢
          have hcl := List.length_pos_of_ne_nil hc
          cases hwalk with
          | missing hr hf hwk =>
            obtain ⟨f3, R, e1, e2, e3⟩ := step_ask S E hw h h9 hh ht hca (by unfold Room at hr; omega)
            rw [e3, hf, ok_bind]
            exact ih _ t _ _ k (by omega) (by omega) (h.next (ascii_word hca) e1 e2) hta hwk htr
          | entry hr hf hnl hnm hl hr2 hwk =>
            rename_i l e
            obtain ⟨f3, R, e1, e2, e3⟩ := step_ask S E hw h h9 hh ht hca (by unfold Room at hr; omega)
            rw [e3, hf]
            dsimp only
            unfold found
            unfold IsLink at hnl
            rw [if_neg hnl, hnm]
            have e1' : f3 = text 1 (p ++ [92]) ++ (text 1 c ++ 0 :: R) := by
              rw [e1, show p ++ 92 :: c = (p ++ [92]) ++ c by simp, text_append]; simp
            have hpl : p ++ [92] ++ l = p ++ 92 :: l := by simp
            obtain ⟨R', q1, q2⟩ := exchange_ok (p := p ++ [92]) (l := l)
              { st with sp := pre.length + j + c.length, f3 := f3, x2 := (text 1 (p ++ 92 :: c)).length } _ e1' e2
              ⟨fun d hd => (hl.1 d hd).1, hl.2⟩ (by rw [hpl]; unfold Room at hr2; omega)
            rw [q1, ok_bind]
            rw [hpl] at q2 ⊢
            exact ih _ t _ _ k (by omega) (by omega) (h.next hl.1 rfl q2) hta hwk htr

end Verif.WinReal
