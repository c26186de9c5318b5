import Verif.TlsVar.ReplaceLemmas

/-! # C68: thread-local mixed variables -/

namespace Verif.TlsVar
open Spec
open Verif.Tls (St Ptr Cell Rel Live setAt)
open Verif.Tls.Spec (put)
open Verif.MixedVar (cstr intToStringU intToStringI)
open Verif.MixedVar.Spec (IntText)

theorem memmove_length {α : Type} {m r : List α} {a b n : Nat} (h : memmoveIn m a b n = .ok r) : r.length = m.length := by
  unfold memmoveIn at h
  split at h
  · split at h
    · cases h; simp; omega
    · cases h
  · cases h

theorem wr_len {m r : List UInt8} {i : Nat} {x : UInt8} (h : wr m i x = .ok r) : r.length = m.length := by
  unfold wr at h
  split at h
  · cases h; simp
  · cases h

theorem intU_safe (m : List UInt8) (num radix : Nat) (hr : radix ≠ 0) :
    ∃ ok m', intToStringU m num radix = .ok (ok, m') ∧ m'.length = m.length := by
  obtain ⟨ok, m', h⟩ := MixedVar.intToStringU_safe m num radix hr
  refine ⟨ok, m', h, ?_⟩
  unfold intToStringU at h
  split at h
  · cases h; rfl
  · next h2 =>
    rw [wr_ok _ (by omega), ok_bind] at h
    have hl : (m.set (m.length - 1) 0).length = m.length := by simp
    by_cases h0 : num = 0
    · rw [if_pos h0, wr_ok _ (by omega), ok_bind] at h
      cases hmm : memmoveIn ((m.set (m.length - 1) 0).set ((m.set (m.length - 1) 0).length - 2) 48) 0
          (((m.set (m.length - 1) 0).set ((m.set (m.length - 1) 0).length - 2) 48).length - 2) 2 with
      | error e => rw [hmm] at h; cases h
      | ok r =>
        rw [hmm, ok_bind] at h
        cases h
        rw [memmove_length hmm]; simp
    · rw [if_neg h0] at h
      obtain ⟨m1, x1, n1, e1, h3, h4⟩ := MixedVar.intLoop_safe radix hr ((m.set (m.length - 1) 0).length - 1)
        (m.set (m.length - 1) 0) num (by omega)
      rw [e1, ok_bind] at h
      simp only at h
      split at h
      · cases h; omega
      · cases hmm : memmoveIn m1 0 x1 (m1.length - x1) with
        | error e => rw [hmm] at h; cases h
        | ok r =>
          rw [hmm, ok_bind] at h
          cases h
          rw [memmove_length hmm]; omega

theorem intI_safe (num : Int) (radix : Nat) (hr : radix ≠ 0) (h : -(2 ^ 63) < num) :
    ∃ ok m', intToStringI (List.replicate 44 0) num radix = .ok (ok, m') ∧ m'.length ≤ 44 := by
  unfold intToStringI
  by_cases h0 : 0 ≤ num
  · rw [if_pos h0]
    obtain ⟨ok, m', e, hl⟩ := intU_safe (List.replicate 44 0) num.toNat radix hr
    exact ⟨ok, m', e, by simp at hl; omega⟩
  · rw [if_neg h0, if_neg (by simp)]
    obtain ⟨ok, m', e, hl⟩ := intU_safe (List.replicate 43 0) (-num).toNat radix hr
    have e43 : List.replicate 44 (0 : UInt8) = 0 :: List.replicate 43 0 := rfl
    rw [e43]
    simp only
    rw [if_neg (by omega), e]
    exact ⟨ok, _, rfl, by simp at hl ⊢; omega⟩

theorem arg_ok {mem : List UInt8} {n : Nat} (h : n ≤ mem.length) : arg mem n = .ok (known (mem.take n)) := by
  unfold arg
  rw [if_pos h]
  rfl

theorem intU_text (num radix : Nat) (h : 2 ≤ radix ∧ radix ≤ 36) : ∃ t, IntText radix num t ∧
    (t.length ≤ 43 → ∃ x, intToStringU (List.replicate 44 0) num radix = .ok (true, x) ∧ cstr x = t) ∧
    (43 < t.length → ∃ x, intToStringU (List.replicate 44 0) num radix = .ok (false, x)) := by
  obtain ⟨t, ht, hz, h1, h2⟩ := MixedVar.intU_text 44 num radix h.1 h.2
  refine ⟨t, ⟨t, by simpa using ht, by simp⟩, fun hl => ?_, fun hl => h2 (by omega)⟩
  obtain ⟨rest, e⟩ := h1 (by omega)
  exact ⟨_, e, MixedVar.cstr_append t rest hz⟩

/-- A call on one variable. -/
theorem call_ok {m K : Nat} (hm : m ≤ 31 ∨ K ≤ 31) {s : St} {le : Live} (h : Rel m K s le) {v : Var} {o : Obs}
    (hv : Has le v o) (c : Call) (ha : Allowed K o c) :
    ∃ v' s' le' o', Done m K le v.ptr (call s v true c) o' v' s' le' ∧ Does o o' c := by
  cases c with
  | setBool b => exact ⟨_, s, le, { o with mode := .bool, int := if b then 1 else 0 }, ⟨rfl, h, ⟨rfl, rfl, hv.dbl, hv.str⟩, Frame.refl ..⟩, rfl⟩
  | setInt n => exact ⟨_, s, le, { o with mode := .int, int := n }, ⟨rfl, h, ⟨rfl, rfl, hv.dbl, hv.str⟩, Frame.refl ..⟩, rfl⟩
  | setUInt n => exact ⟨_, s, le, { o with mode := .uint, int := MixedVar.toI64 n }, ⟨rfl, h, ⟨rfl, rfl, hv.dbl, hv.str⟩, Frame.refl ..⟩, rfl⟩
  | setDouble d => exact ⟨_, s, le, { o with mode := .double, dbl := d }, ⟨rfl, h, ⟨rfl, hv.int, rfl, hv.str⟩, Frame.refl ..⟩, rfl⟩
  | setStr t =>
    obtain ⟨v', s', le', hd⟩ := setCells_ok h hv (known (cstr t)) (by simpa [known, Allowed] using ha)
    exact ⟨v', s', le', _, hd, rfl⟩
  | setData mem n =>
    obtain ⟨v', s', le', hd⟩ := setCells_ok h hv (known (mem.take n)) (by have := ha.1; have := ha.2; simp [known]; omega)
    exact ⟨v', s', le', _, by simp only [call, arg_ok ha.1, ok_bind]; exact hd, rfl⟩
  | prependStr t =>
    obtain ⟨v', s', le', hd⟩ := prependCells_ok h hv (known (cstr t)) (by simpa [known, Allowed] using ha)
    exact ⟨v', s', le', _, hd, rfl⟩
  | prependDouble t =>
    obtain ⟨v', s', le', hd⟩ := prependCells_ok h hv (known (cstr t)) (by simpa [known, Allowed] using ha)
    exact ⟨v', s', le', _, hd, rfl⟩
  | prependData mem n =>
    obtain ⟨v', s', le', hd⟩ := prependCells_ok h hv (known (mem.take n)) (by have := ha.1; have := ha.2; simp [known]; omega)
    exact ⟨v', s', le', _, by simp only [call, arg_ok ha.1, ok_bind]; exact hd, rfl⟩
  | prependInt n r =>
    obtain ⟨h1, h2, h3⟩ := ha
    exact withInt_ok h hv _ _ (fun t => t ++ o.text) n r (fun src hs => prependCells_ok h hv src (by omega))
      (intI_safe n r h1 h2) (fun hr => MixedVar.intI_text n r hr.1 hr.2 h2)
  | prependUInt n r =>
    obtain ⟨h1, h3⟩ := ha
    obtain ⟨ok, t, e, hl⟩ := intU_safe (List.replicate 44 0) n r h1
    exact withInt_ok h hv _ _ (fun t => t ++ o.text) n r (fun src hs => prependCells_ok h hv src (by omega))
      ⟨ok, t, e, by simp at hl; omega⟩ (fun hr => intU_text n r hr)
  | appendStr t =>
    obtain ⟨v', s', le', hd⟩ := appendCells_ok hm h hv (known (cstr t)) (by simpa [known, Allowed] using ha)
    exact ⟨v', s', le', _, hd, rfl⟩
  | appendDouble t =>
    obtain ⟨v', s', le', hd⟩ := appendCells_ok hm h hv (known (cstr t)) (by simpa [known, Allowed] using ha)
    exact ⟨v', s', le', _, hd, rfl⟩
  | appendData mem n =>
    obtain ⟨v', s', le', hd⟩ := appendCells_ok hm h hv (known (mem.take n)) (by have := ha.1; have := ha.2; simp [known]; omega)
    exact ⟨v', s', le', _, by simp only [call, arg_ok ha.1, ok_bind]; exact hd, rfl⟩
  | appendInt n r =>
    obtain ⟨h1, h2, h3⟩ := ha
    exact withInt_ok h hv _ _ (fun t => o.text ++ t) n r (fun src hs => appendCells_ok hm h hv src (by omega))
      (intI_safe n r h1 h2) (fun hr => MixedVar.intI_text n r hr.1 hr.2 h2)
  | appendUInt n r =>
    obtain ⟨h1, h3⟩ := ha
    obtain ⟨ok, t, e, hl⟩ := intU_safe (List.replicate 44 0) n r h1
    exact withInt_ok h hv _ _ (fun t => o.text ++ t) n r (fun src hs => appendCells_ok hm h hv src (by omega))
      ⟨ok, t, e, by simp at hl; omega⟩ (fun hr => intU_text n r hr)
  | appendChar c =>
    obtain ⟨v', s', le', hd⟩ := appendCells_ok hm h hv [some c] (by simpa [Allowed] using ha)
    exact ⟨v', s', le', _, by simp only [call, appendChar_eq]; exact hd, rfl⟩
  | appendMissingChar c =>
    obtain ⟨h1, h2⟩ := ha
    simp only [call, appendMissingChar]
    rw [endsWith_ok h hv c h2, ok_bind]
    by_cases he : o.text.getLast? = some (some c)
    · refine ⟨v, s, le, o, ⟨by simp [he], h, hv, Frame.refl ..⟩, ?_⟩
      simp [Does, he]
    · obtain ⟨v', s', le', hd⟩ := appendCells_ok hm h hv [some c] (by simpa using h1)
      refine ⟨v', s', le', o.with (o.text ++ [some c]), ?_, ?_⟩
      · simp only [he, decide_false, Bool.false_eq_true, if_false, appendChar_eq]
        exact hd
      · simp [Does, he]
  | removeTrailingChar c =>
    simp only [call, removeTrailingChar]
    rw [endsWith_ok h hv c ha, ok_bind]
    by_cases he : o.text.getLast? = some (some c)
    · have hp := hv.len
      cases hs : o.str with
      | none => unfold Obs.text at he; rw [hs] at he; cases he
      | some t =>
        have ht : o.text = t := by unfold Obs.text; rw [hs]
        rw [ht] at he hp
        obtain ⟨v', s', le', hd⟩ := cut_ok h hv hs (v.pos - 1) (by omega)
        refine ⟨v', s', le', o.with (t.take (v.pos - 1)), ?_, ?_⟩
        · simp only [ht, he, decide_true, if_true]
          exact hd
        · simp only [Does, ht, he, if_true]
          rw [List.dropLast_eq_take, hp]
    · refine ⟨v, s, le, o, ⟨by simp [he], h, hv, Frame.refl ..⟩, ?_⟩
      simp [Does, he]
  | setSize n =>
    obtain ⟨h1, h2⟩ := ha
    have hp := hv.len
    simp only [call, setSize]
    by_cases hlt : v.pos < n
    · rw [if_pos hlt]
      obtain ⟨b, s1, cs, le1, e1, r1, hb, hl, ht, f1⟩ := grow_ok hm h hv (n + 1) (by omega) h1
      obtain ⟨s2, rest, e2, r2⟩ := fill_ok r1 hb (cs.take n) [] (by rw [List.length_take, Nat.min_eq_left (by omega)])
        (by simp; omega) { v with ptr := .blk b, pos := n } rfl (by simp; omega)
      rw [List.append_nil] at r2
      refine ⟨{ v with ptr := .blk b, pos := n }, s2, _, o.with (cs.take n), ⟨?_, r2,
        ⟨hv.mode, hv.int, hv.dbl, .inr ⟨b, _, cs.take n, rest, rfl, put_self .., rfl, by simp; omega, rfl⟩⟩,
        f1.trans (Frame.put le1 b _)⟩, cs.take n, by simp; omega, ?_, rfl⟩
      · rw [e1, ok_bind]
        simpa [copyIn] using e2
      · rw [List.take_take, ← hp, Nat.min_eq_left (by omega), ht, List.take_of_length_le (by omega)]
    · rw [if_neg hlt]
      cases hs : o.str with
      | none =>
        exfalso
        have := h2 hs
        have hz : o.text = [] := by unfold Obs.text; rw [hs]
        rw [hz] at hp
        simp at hp
        omega
      | some t =>
        have ht : o.text = t := by unfold Obs.text; rw [hs]
        rw [ht] at hp
        obtain ⟨v', s', le', hd⟩ := cut_ok h hv hs n (by omega)
        refine ⟨v', s', le', _, hd, t.take n, by simp; omega, ?_, rfl⟩
        rw [ht, List.take_take, Nat.min_eq_right (by omega)]

/-- Assignment. -/
theorem assign_ok {m K : Nat} {s : St} {le : Live} (h : Rel m K s le) {v u : Var} {o p : Obs}
    (hv : Has le v o) (hu : Has le u p) (hne : ∀ b, u.ptr = .blk b → v.ptr ≠ .blk b) (hl : p.text.length + 1 ≤ 2 ^ K) :
    ∃ v' s' le', Done m K le v.ptr (assign s v u true) p v' s' le' := by
  obtain ⟨s1, le1, e1, e1', r1, f1⟩ := freeOld_ok h hv
  have hup := hu.len
  unfold assign
  rcases hu.str with ⟨h1, h2, h3⟩ | ⟨b, cs, t, rest, h1, h2, h3, h4, h5⟩
  · rw [if_pos h1, e1', ok_bind]
    exact ⟨_, s1, le1, rfl, r1, ⟨hu.mode, hu.int, hu.dbl, .inl ⟨rfl, rfl, h3⟩⟩, f1⟩
  · rw [if_neg (by rw [h1]; nofun), e1, ok_bind]
    obtain ⟨d, s2, ds, e2, hd, hdl, r2⟩ := alloc_ok r1 (u.pos + 1) (by omega) (by omega)
    have hb1 : le1 b = some cs := by rw [(f1.1 b (hne b h1) (by rw [h2]; simp)).1, h2]
    have hbd : b ≠ d := fun e => by rw [e, hd] at hb1; cases hb1
    have hb2 : put le1 d (some ds) b = some cs := by rw [put_ne _ _ hbd, hb1]
    have e3 : readAll s2 u.ptr u.pos = .ok t := by
      rw [h1, readAll_ok r2 hb2 u.pos (by rw [h4, h5]; simp), h5, h4]
      simp
    obtain ⟨s4, rest', e4, r4⟩ := fill_ok r2 (put_self ..) [] t rfl (by simp; omega)
      { v with ptr := .blk d, pos := u.pos } rfl (by simp; omega)
    rw [Tls.put_put] at r4
    refine ⟨{ v with ptr := .blk d, pos := u.pos, mode := u.mode, mxInt := u.mxInt, dbl := u.dbl }, s4, _, ?_, r4,
      ⟨hu.mode, hu.int, hu.dbl, .inr ⟨d, _, t, rest', rfl, put_self .., h3, h4, rfl⟩⟩, f1.trans (Frame.new le1 hd _)⟩
    rw [e2, ok_bind]
    simp only
    rw [e3, ok_bind]
    cases hci : copyIn s2 (.blk d) 0 t with
    | error e => rw [show ([] : List Cell).length = 0 from rfl, hci] at e4; cases e4
    | ok s3 =>
      rw [show ([] : List Cell).length = 0 from rfl, hci, ok_bind] at e4
      rw [ok_bind, e4, ok_bind]

/-- The invariant of the program. -/
structure Inv (m K : Nat) (w : World) (σ : Vars) (le : Live) : Prop where
  rel : Rel m K w.s le
  same : ∀ i, w.v i = none ↔ σ i = none
  has : ∀ i v o, w.v i = some v → σ i = some o → Has le v o
  apart : ∀ i j v u b, i ≠ j → w.v i = some v → w.v j = some u → v.ptr = .blk b → u.ptr ≠ .blk b
  own : ∀ b, le b ≠ none → ∃ i v, w.v i = some v ∧ v.ptr = .blk b

theorem Inv.pair {m K : Nat} {w : World} {σ : Vars} {le : Live} (h : Inv m K w σ le) {i : Nat} {o : Obs} (hi : σ i = some o) :
    ∃ v, w.v i = some v ∧ Has le v o := by
  cases hv : w.v i with
  | none => rw [(h.same i).1 hv] at hi; cases hi
  | some v => exact ⟨v, rfl, h.has i v o hv hi⟩

theorem looks_of {m K : Nat} {s : St} {le : Live} (h : Rel m K s le) {v : Var} {o : Obs} (hv : Has le v o) : Looks s v o := by
  refine ⟨hv.mode, hv.int, hv.dbl, hv.len, ?_, ?_⟩
  · rcases hv.str with ⟨h1, h2, h3⟩ | ⟨b, cs, t, rest, h1, h2, h3, h4, h5⟩
    · simp [h1, h3]
    · simp [h1, h3]
  · intro t ht
    rcases hv.str with ⟨h1, h2, h3⟩ | ⟨b, cs, t', rest, h1, h2, h3, h4, h5⟩
    · rw [h3] at ht; cases ht
    · rw [h3] at ht; cases ht
      rw [h1]
      refine ⟨fun i c hc => peek_ok h h2 ?_, peek_ok h h2 (by rw [h5]; simp)⟩
      rw [h5, List.getElem?_append_left]
      · exact hc
      · rcases Nat.lt_or_ge i t.length with h | h
        · exact h
        · rw [List.getElem?_eq_none h] at hc; cases hc

theorem Inv.shows {m K : Nat} {w : World} {σ : Vars} {le : Live} (h : Inv m K w σ le) : Shows w σ := by
  intro i
  cases hv : w.v i with
  | none => rw [(h.same i).1 hv]; trivial
  | some v =>
    cases hs : σ i with
    | none => rw [(h.same i).2 hs] at hv; cases hv
    | some o => exact looks_of h.rel (h.has i v o hv hs)

theorem looks_unique {s : St} {v : Var} {o p : Obs} (h : Looks s v o) (k : Looks s v p) : o = p := by
  obtain ⟨a1, a2, a3, a4, a5, a6⟩ := h
  obtain ⟨b1, b2, b3, b4, b5, b6⟩ := k
  have hs : o.str = p.str := by
    cases ho : o.str with
    | none =>
      rw [b5.1 (a5.2 ho)]
    | some t =>
      cases hp : p.str with
      | none => rw [a5.1 (b5.2 hp)] at ho; cases ho
      | some u =>
        have hl : t.length = u.length := by
          unfold Obs.text at a4 b4
          rw [ho] at a4; rw [hp] at b4
          simp only at a4 b4
          omega
        congr 1
        refine List.ext_getElem hl fun i h1 h2 => ?_
        have c1 := (a6 t ho).1 i _ (List.getElem?_eq_getElem h1)
        have c2 := (b6 u hp).1 i _ (List.getElem?_eq_getElem h2)
        rw [c1] at c2
        exact Except.ok.inj c2
  cases o; cases p
  simp_all

theorem shows_unique {w : World} {σ τ : Vars} (h : Shows w σ) (k : Shows w τ) : σ = τ := by
  funext i
  have a := h i
  have b := k i
  cases hv : w.v i with
  | none =>
    rw [hv] at a b
    cases hs : σ i with
    | some o => rw [hs] at a; exact a.elim
    | none =>
      cases ht : τ i with
      | some o => rw [ht] at b; exact b.elim
      | none => rfl
  | some v =>
    rw [hv] at a b
    cases hs : σ i with
    | none => rw [hs] at a; exact a.elim
    | some o =>
      cases ht : τ i with
      | none => rw [ht] at b; exact b.elim
      | some p =>
        rw [hs] at a; rw [ht] at b
        rw [looks_unique a b]

theorem get_ok {w : World} {i : Nat} {v : Var} (h : w.v i = some v) : w.get i = .ok v := by
  unfold World.get; rw [h]

/-- Variable `i` is replaced after a call. -/
theorem Inv.update {m K : Nat} {w : World} {σ : Vars} {le : Live} (h : Inv m K w σ le) {i : Nat} {v v' : Var} (hv : w.v i = some v)
    {s' : St} {le' : Live} {o' : Obs} (r : Rel m K s' le') (hh : Has le' v' o') (f : Frame le v.ptr le' v'.ptr) :
    Inv m K { s := s', v := setAt w.v i (some v') } (upd σ i (some o')) le' := by
  have hne : ∀ j u, j ≠ i → w.v j = some u → ∀ b, u.ptr = .blk b → v.ptr ≠ .blk b :=
    fun j u hj hu b hb => h.apart j i u v b hj hu hv hb
  have hlive : ∀ j u b, w.v j = some u → u.ptr = .blk b → le b ≠ none := by
    intro j u b hu hb
    cases ho : σ j with
    | none => rw [(h.same j).2 ho] at hu; cases hu
    | some o =>
      rcases (h.has j u o hu ho).str with ⟨h1, _⟩ | ⟨b', cs, t, rest, h1, h2, _⟩
      · rw [h1] at hb; cases hb
      · rw [h1] at hb; cases hb; rw [h2]; simp
  refine ⟨r, ?_, ?_, ?_, ?_⟩
  · intro k
    simp only [setAt, upd]
    by_cases e : k = i
    · simp [e]
    · simp only [if_neg e]; exact h.same k
  · intro k u p hu hp
    simp only [setAt] at hu
    simp only [upd] at hp
    by_cases e : k = i
    · rw [if_pos e] at hu hp; cases hu; cases hp; exact hh
    · rw [if_neg e] at hu hp
      have := h.has k u p hu hp
      exact ⟨this.mode, this.int, this.dbl, this.str.frame f (hne k u e hu)⟩
  · intro j k u x b hjk hj hk hb
    simp only [setAt] at hj hk
    by_cases e1 : j = i
    · rw [if_pos e1] at hj; cases hj
      rw [if_neg (fun e => hjk (by rw [e1, e]))] at hk
      have hki : k ≠ i := fun e => hjk (by rw [e1, e])
      intro hx
      exact (f.1 b (hne k x hki hk b hx) (hlive k x b hk hx)).2 hb
    · rw [if_neg e1] at hj
      by_cases e2 : k = i
      · rw [if_pos e2] at hk; cases hk
        exact (f.1 b (hne j u e1 hj b hb) (hlive j u b hj hb)).2
      · rw [if_neg e2] at hk
        exact h.apart j k u x b hjk hj hk hb
  · intro b hb
    rcases f.2 b hb with e | ⟨e1, e2⟩
    · exact ⟨i, v', by simp [setAt], e⟩
    · obtain ⟨j, u, hj, hu⟩ := h.own b e1
      have : j ≠ i := by
        rintro rfl
        rw [hv] at hj; cases hj
        exact e2 hu
      exact ⟨j, u, by simp [setAt, this, hj], hu⟩

theorem step_inv {m K : Nat} (hm : m ≤ 31 ∨ K ≤ 31) {w : World} {σ : Vars} {le : Live} (h : Inv m K w σ le) (op : Op)
    (hl : Legal K σ op) : ∃ w' σ' le', step w op = .ok w' ∧ Inv m K w' σ' le' ∧ Effect σ σ' op := by
  cases op with
  | create i =>
    have hn : w.v i = none := (h.same i).2 hl
    refine ⟨_, _, le, rfl, ⟨h.rel, ?_, ?_, ?_, ?_⟩, rfl⟩
    · intro k
      simp only [setAt, upd]
      by_cases e : k = i
      · simp [e]
      · simp only [if_neg e]; exact h.same k
    · intro k u p hu hp
      simp only [setAt] at hu
      simp only [upd] at hp
      by_cases e : k = i
      · rw [if_pos e] at hu hp; cases hu; cases hp
        exact ⟨rfl, rfl, rfl, .inl ⟨rfl, rfl, rfl⟩⟩
      · rw [if_neg e] at hu hp; exact h.has k u p hu hp
    · intro j k u x b hjk hj hk hb
      simp only [setAt] at hj hk
      by_cases e1 : j = i
      · rw [if_pos e1] at hj; cases hj; cases hb
      · rw [if_neg e1] at hj
        by_cases e2 : k = i
        · rw [if_pos e2] at hk; cases hk; nofun
        · rw [if_neg e2] at hk
          exact h.apart j k u x b hjk hj hk hb
    · intro b hb
      obtain ⟨j, u, hj, hu⟩ := h.own b hb
      have : j ≠ i := by rintro rfl; rw [hn] at hj; cases hj
      exact ⟨j, u, by simp [setAt, this, hj], hu⟩
  | destroy i =>
    obtain ⟨o, ho⟩ := Option.ne_none_iff_exists'.1 hl
    obtain ⟨v, hv, hh⟩ := h.pair ho
    obtain ⟨s', le', e, _, r, f⟩ := freeOld_ok h.rel hh
    have hi := h.update (v' := construct) (o' := ⟨.none, 0, 0, none⟩) hv r ⟨rfl, rfl, rfl, .inl ⟨rfl, rfl, rfl⟩⟩ f
    refine ⟨{ s := s', v := setAt w.v i none }, _, le', ?_, ⟨r, ?_, ?_, ?_, ?_⟩, rfl⟩
    · simp only [step]
      rw [get_ok hv, ok_bind]
      unfold destroy
      rw [e, ok_bind]
    · intro k
      simp only [setAt, upd]
      by_cases e : k = i
      · simp [e]
      · simp only [if_neg e]; exact h.same k
    · intro k u p hu hp
      simp only [setAt] at hu
      simp only [upd] at hp
      by_cases e : k = i
      · rw [if_pos e] at hu; cases hu
      · rw [if_neg e] at hu hp
        exact hi.has k u p (by simp [setAt, e, hu]) (by simp [upd, e, hp])
    · intro j k u x b hjk hj hk hb
      simp only [setAt] at hj hk
      by_cases e1 : j = i
      · rw [if_pos e1] at hj; cases hj
      · rw [if_neg e1] at hj
        by_cases e2 : k = i
        · rw [if_pos e2] at hk; cases hk
        · rw [if_neg e2] at hk
          exact h.apart j k u x b hjk hj hk hb
    · intro b hb
      obtain ⟨j, u, hj, hu⟩ := hi.own b hb
      simp only [setAt] at hj
      by_cases e : j = i
      · simp only [e, if_true] at hj; cases hj; cases hu
      · simp only [e, if_false] at hj
        exact ⟨j, u, by simp [setAt, e, hj], hu⟩
  | assign i j ok =>
    obtain ⟨rfl, o, p, ho, hp, hK⟩ := hl
    obtain ⟨v, hv, hh⟩ := h.pair ho
    obtain ⟨u, hu, hg⟩ := h.pair hp
    by_cases hij : i = j
    · subst hij
      refine ⟨w, σ, le, ?_, h, ?_⟩
      · simp only [step]; simp [get_ok hv]
      · funext k
        unfold upd
        split
        · next e => rw [e]
        · rfl
    · obtain ⟨v', s', le', hd⟩ := assign_ok h.rel hh hg (fun b hb => h.apart j i u v b (Ne.symm hij) hu hv hb) hK
      refine ⟨_, _, le', ?_, h.update hv hd.rel hd.has hd.frame, ?_⟩
      · simp only [step]
        rw [get_ok hv, ok_bind, get_ok hu, ok_bind, if_neg hij, hd.eq, ok_bind]
      · simp only [Effect]; rw [hp]
  | call i ok c =>
    obtain ⟨rfl, o, ho, ha⟩ := hl
    obtain ⟨v, hv, hh⟩ := h.pair ho
    obtain ⟨v', s', le', o', hd, hdoes⟩ := call_ok hm h.rel hh c ha
    refine ⟨_, _, le', ?_, h.update hv hd.rel hd.has hd.frame, o, o', ho, hdoes, rfl⟩
    simp only [step]
    rw [get_ok hv, ok_bind, hd.eq, ok_bind]
  | replace i ok ov src dest =>
    obtain ⟨rfl, o, t, ho, ha⟩ := hl
    obtain ⟨v, hv, hh⟩ := h.pair ho
    obtain ⟨k, out, v', s', le', e, hR, hr, hh', hf⟩ := replaceData_ok hm h.rel hh ha
    refine ⟨_, _, le', ?_, h.update hv hr hh' hf, o, t, k, out, ho, ha.1, hR, rfl⟩
    simp only [step]
    rw [get_ok hv, ok_bind, e, ok_bind]

theorem reach_inv {m K : Nat} (hm : m ≤ 31 ∨ K ≤ 31) (hK : 3 ≤ K ∧ K ≤ 63) {w : World} (h : Reach m K w) :
    ∃ σ le, Inv m K w σ le := by
  induction h with
  | start =>
    exact ⟨fun _ => none, Tls.Spec.Live.none, ⟨(Tls.init_rel m K hK).1, fun _ => ⟨fun _ => rfl, fun _ => rfl⟩,
      (fun _ _ _ h => nomatch h), (fun _ _ _ _ _ _ h => nomatch h), fun b hb => absurd rfl hb⟩⟩
  | step _ hs hl he ih =>
    obtain ⟨τ, le, hi⟩ := ih
    rw [shows_unique hs hi.shows] at hl
    obtain ⟨w', σ', le', e, hi', _⟩ := step_inv hm hi _ hl
    rw [he] at e; cases e
    exact ⟨σ', le', hi'⟩

/-- **C68** (partial).  In every state a legal program can reach, the variables have an observable state, and every further
legal step has no undefined behaviour and exactly the specified effect: the variable named changes as its text and values
should, all others keep their state.  Missing: failing allocations, texts of over 2^63 bytes and, with more than 31 buckets,
over 2^31 (the limits of the allocator, C40); `SetSize(0)` on a variable without text and the copy constructor, which are
undefined (`set_size_undefined`, `copy_undefined`); what C81 names about `ReplaceData`. -/
theorem tls_vars_partial (m K : Nat) (hm : m ≤ 31 ∨ K ≤ 31) (hK : 3 ≤ K ∧ K ≤ 63) (w : World) (h : Reach m K w) :
    ∃ σ, Shows w σ ∧ ∀ op, Legal K σ op → ∃ w' σ', step w op = .ok w' ∧ Shows w' σ' ∧ Effect σ σ' op := by
  obtain ⟨σ, le, hi⟩ := reach_inv hm hK h
  refine ⟨σ, hi.shows, fun op hl => ?_⟩
  obtain ⟨w', σ', le', e, hi', he⟩ := step_inv hm hi op hl
  exact ⟨w', σ', e, hi'.shows, he⟩

/-- What a state shows is unique, so the theorem above is about the state the program sees. -/
theorem shown_unique (w : World) (σ τ : Vars) (h : Shows w σ) (k : Shows w τ) : σ = τ := shows_unique h k

/-- **C68**, memory: when all variables are gone (or have no text), `ThreadEnd` gives every block back to the system. -/
theorem no_leak_partial (m K : Nat) (hm : m ≤ 31 ∨ K ≤ 31) (hK : 3 ≤ K ∧ K ≤ 63) (w : World) (h : Reach m K w)
    (hn : ∀ i v, w.v i = some v → v.ptr = .null) :
    ∃ s', Tls.threadEnd w.s = .ok (true, s') ∧ ∀ b c, s'.heap.block b ≠ .ok c := by
  obtain ⟨σ, le, hi⟩ := reach_inv hm hK h
  obtain ⟨s', e, h1, h2⟩ := Tls.threadEnd_ok hi.rel
  refine ⟨s', e, fun b c hc => ?_⟩
  have : s'.heap[b]? = some (some c) := by
    unfold BHeap.block at hc
    split at hc
    · next x hx => cases hc; exact hx
    · cases hc
  obtain ⟨i, v, hv, hp⟩ := hi.own b (h2 b c this)
  rw [hn i v hv] at hp
  cases hp

/-! ## Examples -/

/-- Two variables; the text of one is assigned to the other and both change afterwards. -/
def sample : List Op :=
  [.create 0, .create 1, .call 0 true (.setStr [97, 98]), .assign 1 0 true, .call 0 true (.appendInt (-12) 10),
   .call 1 true (.prependData [1, 2, 3] 2), .call 1 true (.removeTrailingChar 98), .call 0 true (.setSize 3), .destroy 0]

/-- The state after a list of steps. -/
def runAll (w : World) : List Op → CRes World
  | [] => .ok w
  | op :: ops => do
    let w ← step w op
    runAll w ops

/-- The observed text of a variable. -/
def textOf (w : World) (i : Nat) : CRes (List Cell) := do
  let v ← w.get i
  readAll w.s v.ptr v.pos

example : (runAll (.start 4) (sample.take 8) >>= fun w => textOf w 0) = .ok [some 97, some 98, some 45] := by decide +kernel
example : (runAll (.start 4) sample >>= fun w => textOf w 1) = .ok [some 1, some 2, some 97] := by decide +kernel
example : (runAll (.start 4) sample >>= fun w => textOf w 0) = .error .badPtr := by decide +kernel

/-- A reachable state with two texts. -/
example : ∃ w, Reach 4 10 w ∧ ∃ v, w.v 0 = some v ∧ v.ptr ≠ .null := by
  have k1 : Shows (World.start 4) (fun _ => none) := fun _ => trivial
  have r1 : Reach 4 10 ⟨(World.start 4).s, setAt (World.start 4).v 0 (some construct)⟩ := .step .start k1 (op := .create 0) rfl rfl
  obtain ⟨σ, hs, hstep⟩ := tls_vars_partial 4 10 (.inl (by decide)) (by decide) _ r1
  have h0 := hs 0
  cases hσ : σ 0 with
  | none => rw [hσ] at h0; exact h0.elim
  | some o =>
    have hl : Legal 10 σ (.call 0 true (.setStr [97])) := ⟨rfl, o, hσ, by simp [Allowed, cstr]⟩
    obtain ⟨w', σ', e, _, _⟩ := hstep _ hl
    refine ⟨w', .step r1 hs hl e, ?_⟩
    have : step ⟨(World.start 4).s, setAt (World.start 4).v 0 (some construct)⟩ (.call 0 true (.setStr [97])) = .ok
      ⟨_, setAt _ 0 (some ⟨.str, 0, 0, .blk 0, 1⟩)⟩ := rfl
    rw [this] at e
    cases e
    exact ⟨_, rfl, nofun⟩

/-! ## Disagreements -/

/-- The copy constructor reads its uninitialised text pointer whenever there is a text to copy. -/
theorem copy_undefined (v : Var) (h : v.ptr ≠ .null) : copyConstruct v = .error .uninit := by
  unfold copyConstruct; rw [if_neg h]

/-- `SetSize(0)` on a new variable writes through NULL. -/
theorem set_size_undefined (s : St) : call s construct true (.setSize 0) = .error .nullDeref := rfl

/-- When the system is out of memory, setting a text writes through NULL. -/
theorem set_failure_undefined : call (Tls.threadInit .empty 15) construct false (.setStr [97]) = .error .nullDeref := by
  rfl

/-- Without `ThreadInit` every text is undefined. -/
theorem no_thread_undefined (ok : Bool) (c : UInt8) : call .empty construct ok (.appendChar c) = .error .nullDeref := rfl

end Verif.TlsVar
