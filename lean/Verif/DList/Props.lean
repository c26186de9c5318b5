import Verif.DList.Lemmas

/-! # Properties C14, C15, C16 of `List` -/

namespace Verif.DList
open Verif.Links Spec

variable {α : Type}

/-! ## Every call follows the specification -/

theorem bind_some {β γ : Type} {m : Option β} {f : β → Option γ} {c : γ} (h : (m >>= f) = some c) :
    ∃ b, m = some b ∧ f b = some c := by
  cases m with
  | none => cases h
  | some b => exact ⟨b, rfl, h⟩

theorem insertBeforeV_ok {w : W α} {s s' : S α} (r : R w s) {l : Nat} {n : Option Nat} {v : α}
    (h : place (create s v) l s.fresh (insBefore · s.fresh n) = some s') :
    ∃ w', insertBeforeV w l n v = .ok (some s.fresh, w') ∧ R w' s' := by
  obtain ⟨xs, hl, h⟩ := bind_some h
  obtain ⟨ys, hy, h⟩ := bind_some h
  cases h
  have hl := seq_some.1 hl
  obtain ⟨r1, e1⟩ := r.create v
  have hl0 : s.seqs[l]? = some (some xs) := hl
  obtain ⟨o, ho, -, ha, hc, hn⟩ := getObj_ok r hl0
  obtain ⟨o1, ho1, -, ha1, hc1, hn1⟩ := getObj_ok r1 hl
  have eo : o1 = o := by
    have h1 : getObj (createNode w v).2 l = getObj w l := rfl
    rw [h1, ho] at ho1
    cases ho1; rfl
  subst eo
  have hx : s.fresh ∈ (create s v).loose := by simp [create]
  have hxx := r1.looseOk hx
  have hnot : s.fresh ∉ xs := fun h' => r1.looseDisj hl _ h' hx
  have k := linkBefore_spec hc1 hnot hxx.1 hxx.2.2 hy
  obtain ⟨w', hw, r2⟩ := r1.place hl hx ha1 hn1 k
  refine ⟨w', ?_, r2⟩
  unfold insertBeforeV
  rw [ho]
  simp only [ok_bind]
  rw [e1, hw]
  rfl

theorem insertAfterV_ok {w : W α} {s s' : S α} (r : R w s) {l : Nat} {n : Option Nat} {v : α}
    (h : place (create s v) l s.fresh (insAfter · s.fresh n) = some s') :
    ∃ w', insertAfterV w l n v = .ok (some s.fresh, w') ∧ R w' s' := by
  obtain ⟨xs, hl, h⟩ := bind_some h
  obtain ⟨ys, hy, h⟩ := bind_some h
  cases h
  have hl := seq_some.1 hl
  obtain ⟨r1, e1⟩ := r.create v
  have hl0 : s.seqs[l]? = some (some xs) := hl
  obtain ⟨o, ho, -, ha, hc, hn⟩ := getObj_ok r hl0
  obtain ⟨o1, ho1, -, ha1, hc1, hn1⟩ := getObj_ok r1 hl
  have eo : o1 = o := by
    have h1 : getObj (createNode w v).2 l = getObj w l := rfl
    rw [h1, ho] at ho1
    cases ho1; rfl
  subst eo
  have hx : s.fresh ∈ (create s v).loose := by simp [create]
  have hxx := r1.looseOk hx
  have hnot : s.fresh ∉ xs := fun h' => r1.looseDisj hl _ h' hx
  have k := linkAfter_spec hc1 hnot hxx.1 hxx.2.1 hy
  obtain ⟨w', hw, r2⟩ := r1.place hl hx ha1 hn1 k
  refine ⟨w', ?_, r2⟩
  unfold insertAfterV
  rw [ho]
  simp only [ok_bind]
  rw [e1, hw]
  rfl

theorem attachedTest_loose {w : W α} {s : S α} (r : R w s) {x : Nat} (hx : x ∈ s.loose) :
    attachedTest w x = .ok false := by
  obtain ⟨h1, h2, h3⟩ := r.looseOk hx
  simp [attachedTest, getNx, getPv, h1, h2, h3]

theorem attachedTest_neighbour {w : W α} {s : S α} (r : R w s) {x : Nat} (hx : hasNeighbour s x = true) :
    attachedTest w x = .ok true := by
  unfold hasNeighbour at hx
  rw [List.any_eq_true] at hx
  obtain ⟨q, hq, hx⟩ := hx
  cases q with
  | none => simp at hx
  | some xs =>
    simp only [decide_eq_true_eq] at hx
    obtain ⟨l, hl⟩ := List.getElem?_of_mem hq
    obtain ⟨o, -, -, hc, -⟩ := r.obj hl
    obtain ⟨as, bs, rfl⟩ := List.append_of_mem hx.1
    have hs := (seg_append _ _ _ _ _ _).1 hc.seg
    have hpx : w.lh.pv x = as.getLast? := by have := hs.2.1; simpa using this
    have hnx : w.lh.nx x = bs.head? := by have := hs.2.2.1; simpa using this
    have hlx := hc.live x (by simp)
    simp only [attachedTest, getNx, getPv, hlx, if_true, ok_bind, hpx, hnx]
    congr 1
    cases bs with
    | cons b bs => simp
    | nil =>
      rcases List.eq_nil_or_concat as with rfl | ⟨as', a, rfl⟩
      · simp at hx
      · simp

theorem insertBeforeN_ok {w : W α} {s s' : S α} (r : R w s) {l x : Nat} {n : Option Nat} {ret : Ret}
    (h : insertNode s l x (insBefore · x n) = some (ret, s')) :
    ∃ res w', insertBeforeN w l n x = .ok (res, w') ∧ ret = .node res ∧ R w' s' := by
  unfold insertNode at h
  by_cases hx : x ∈ s.loose
  · rw [if_pos hx] at h
    obtain ⟨s1, h, h'⟩ := bind_some h
    cases h'
    obtain ⟨xs, hl, h⟩ := bind_some h
    obtain ⟨ys, hy, h⟩ := bind_some h
    cases h
    have hl := seq_some.1 hl
    obtain ⟨o, ho, -, ha, hc, hn⟩ := getObj_ok r hl
    have hxx := r.looseOk hx
    have k := linkBefore_spec hc (fun h' => r.looseDisj hl _ h' hx) hxx.1 hxx.2.2 hy
    obtain ⟨w', hw, r2⟩ := r.place hl hx ha hn k
    exact ⟨some x, w', by simp [insertBeforeN, ho, attachedTest_loose r hx, hw], rfl, r2⟩
  · rw [if_neg hx] at h
    obtain ⟨xs, hl, h⟩ := bind_some h
    have hl := seq_some.1 hl
    obtain ⟨o, ho, -, ha, hc, hn⟩ := getObj_ok r hl
    by_cases hb : hasNeighbour s x = true
    · rw [if_pos hb] at h
      cases h
      exact ⟨none, w, by simp [insertBeforeN, ho, attachedTest_neighbour r hb], rfl, r⟩
    · rw [if_neg hb] at h
      cases h

theorem insertAfterN_ok {w : W α} {s s' : S α} (r : R w s) {l x : Nat} {n : Option Nat} {ret : Ret}
    (h : insertNode s l x (insAfter · x n) = some (ret, s')) :
    ∃ res w', insertAfterN w l n x = .ok (res, w') ∧ ret = .node res ∧ R w' s' := by
  unfold insertNode at h
  by_cases hx : x ∈ s.loose
  · rw [if_pos hx] at h
    obtain ⟨s1, h, h'⟩ := bind_some h
    cases h'
    obtain ⟨xs, hl, h⟩ := bind_some h
    obtain ⟨ys, hy, h⟩ := bind_some h
    cases h
    have hl := seq_some.1 hl
    obtain ⟨o, ho, -, ha, hc, hn⟩ := getObj_ok r hl
    have hxx := r.looseOk hx
    have k := linkAfter_spec hc (fun h' => r.looseDisj hl _ h' hx) hxx.1 hxx.2.1 hy
    obtain ⟨w', hw, r2⟩ := r.place hl hx ha hn k
    exact ⟨some x, w', by simp [insertAfterN, ho, attachedTest_loose r hx, hw], rfl, r2⟩
  · rw [if_neg hx] at h
    obtain ⟨xs, hl, h⟩ := bind_some h
    have hl := seq_some.1 hl
    obtain ⟨o, ho, -, ha, hc, hn⟩ := getObj_ok r hl
    by_cases hb : hasNeighbour s x = true
    · rw [if_pos hb] at h
      cases h
      exact ⟨none, w, by simp [insertAfterN, ho, attachedTest_neighbour r hb], rfl, r⟩
    · rw [if_neg hb] at h
      cases h

/-- The state after one push. -/
theorem push_state (s : S α) (d : Nat) (ds : List Nat) (v : α) (hd : s.seqs[d]? = some (some ds)) :
    place (create s v) d s.fresh (insBefore · s.fresh none) =
      some { setSeq s d (some (ds ++ [s.fresh])) with val := upd s.val s.fresh v, fresh := s.fresh + 1 } := by
  have : seq (create s v) d = some ds := seq_some.2 hd
  unfold place
  rw [this]
  simp [insBefore, create, setSeq]

/-- The copy loop pushes the values of the rest of the source list. -/
theorem copyLoop_ok : ∀ (rest : List Nat) (k : Nat) (w : W α) (s : S α) (_ : R w s) (src d : Nat) (as ds : List Nat)
    (_ : src ≠ d) (_ : s.seqs[src]? = some (some (as ++ rest))) (_ : s.seqs[d]? = some (some ds)) (_ : rest.length < k),
    ∃ w' s', copyLoop k w rest.head? d = .ok w' ∧ pushAll s d (rest.map s.val) = some s' ∧ R w' s'
  | [], k + 1, w, s, r, src, d, as, ds, hne, hs, hd, hk => ⟨w, s, rfl, rfl, r⟩
  | x :: rest, k + 1, w, s, r, src, d, as, ds, hne, hs, hd, hk => by
    obtain ⟨o, -, -, hc, -⟩ := r.obj hs
    have hlx : w.lh.live x = true := hc.live x (by simp)
    have hp := push_state s d ds (s.val x) hd
    obtain ⟨w1, h1, r1⟩ := insertBeforeV_ok r hp
    have hs1 : ({ setSeq s d (some (ds ++ [s.fresh])) with val := upd s.val s.fresh (s.val x), fresh := s.fresh + 1 } : S α).seqs[src]?
        = some (some ((as ++ [x]) ++ rest)) := by
      show (s.seqs.set d _)[src]? = _
      rw [List.getElem?_set_ne (Ne.symm hne), hs]
      simp
    have hd1 : ({ setSeq s d (some (ds ++ [s.fresh])) with val := upd s.val s.fresh (s.val x), fresh := s.fresh + 1 } : S α).seqs[d]?
        = some (some (ds ++ [s.fresh])) := seqs_set hd
    obtain ⟨o1, -, -, hc1, -⟩ := r1.obj hs1
    have hsg := (seg_append _ _ _ _ _ _).1 ((seg_append _ _ _ _ _ _).1 hc1.seg).1
    have hnx : w1.lh.nx x = rest.head? := by have := hsg.2.2.1; simpa using this
    have hlx1 : w1.lh.live x = true := hc1.live x (by simp)
    obtain ⟨w2, s2, h2, h3, r2⟩ := copyLoop_ok rest k w1 _ r1 src d (as ++ [x]) _ hne hs1 hd1
      (by simp only [List.length_cons] at hk; omega)
    refine ⟨w2, s2, ?_, ?_, r2⟩
    · simp only [List.head?_cons, copyLoop, getVal, hlx, if_true, ok_bind, r.val hlx, h1, getNx, hlx1, hnx]
      exact h2
    · simp only [List.map_cons, pushAll]
      have e : place (create s (s.val x)) d s.fresh (fun xs => some (xs ++ [s.fresh])) = _ := hp
      rw [e]
      simp only [Option.bind_eq_bind, Option.bind_some]
      rw [← h3]
      congr 1
      apply List.map_congr_left
      intro y hy
      refine (upd_other _ _ ?_).symm
      have : w.lh.live y = true := hc.live y (by simp [hy])
      have := r.bound this
      rw [r.fresh] at this
      omega

theorem detachAll_ok {w : W α} {s : S α} (r : R w s) {d t : Nat} {xs ys : List Nat} (hne : d ≠ t)
    (hd : s.seqs[d]? = some (some xs)) (ht : s.seqs[t]? = some (some ys)) :
    ∃ w', detachAllAndAppend w d t = .ok w' ∧ R w' (setSeq (setSeq s d (some (xs ++ ys))) t (some [])) := by
  obtain ⟨o, ho, ho', ha, hc, hn⟩ := getObj_ok r hd
  obtain ⟨p, hp, hp', ha', hc', hn'⟩ := getObj_ok r ht
  have hdt := r.disj hne hd ht
  have hltd : d < w.objs.length := (List.getElem?_eq_some_iff.1 ho').1
  have hltt : t < w.objs.length := (List.getElem?_eq_some_iff.1 hp').1
  have hltd' : d < s.seqs.length := (List.getElem?_eq_some_iff.1 hd).1
  have hltt' : t < s.seqs.length := (List.getElem?_eq_some_iff.1 ht).1
  -- the final relation, from the chain of the joined list
  have fin : ∀ (h' : LH) (o' : Obj), o'.alive = true → Chain h' o'.ends (xs ++ ys) → o'.num = (xs ++ ys).length →
      Frame w.lh h' (xs ++ ys) →
      R (setObj (setObj { w with lh := h' } d o') t { p with ends := ⟨none, none⟩, num := 0 })
        (setSeq (setSeq s d (some (xs ++ ys))) t (some [])) := by
    intro h' o' hal hch hnum hf
    have key : ∀ {i : Nat} {q : List Nat}, ((s.seqs.set d (some (xs ++ ys))).set t (some []))[i]? = some (some q) →
        (i = t ∧ q = []) ∨ (i = d ∧ q = xs ++ ys) ∨ (i ≠ t ∧ i ≠ d ∧ s.seqs[i]? = some (some q)) := by
      intro i q h
      rcases getElem?_set_cases h with ⟨rfl, hq⟩ | ⟨h1, h⟩
      · cases hq; exact Or.inl ⟨rfl, rfl⟩
      · rcases getElem?_set_cases h with ⟨rfl, hq⟩ | ⟨h2, h⟩
        · cases hq; exact Or.inr (Or.inl ⟨rfl, rfl⟩)
        · exact Or.inr (Or.inr ⟨h1, h2, h⟩)
    have notin : ∀ {i : Nat} {q : List Nat}, i ≠ t → i ≠ d → s.seqs[i]? = some (some q) → ∀ y ∈ q, y ∉ xs ++ ys := by
      intro i q h1 h2 h y hy hy'
      rcases List.mem_append.1 hy' with h3 | h3
      · exact r.disj h2 h hd y hy h3
      · exact r.disj h1 h ht y hy h3
    have lnot : ∀ y ∈ s.loose, y ∉ xs ++ ys := by
      intro y hy hy'
      rcases List.mem_append.1 hy' with h3 | h3
      · exact r.looseDisj hd y h3 hy
      · exact r.looseDisj ht y h3 hy
    have hlv : ∀ x, (setObj (setObj { w with lh := h' } d o') t { p with ends := ⟨none, none⟩, num := 0 }).lh.live x =
        w.lh.live x := by
      intro x; show h'.live x = _; rw [hf.live]
    refine ⟨by simp [setObj, setSeq, r.len], ?_, ?_, ?_, r.looseNd, ?_, ?_, r.fresh,
      fun h => r.bound (by rw [hlv] at h; exact h), fun h => r.val (by rw [hlv] at h; exact h)⟩
    · intro i q h
      rcases key h with ⟨rfl, rfl⟩ | ⟨rfl, rfl⟩ | ⟨h1, h2, h⟩
      · exact ⟨{ p with ends := ⟨none, none⟩, num := 0 }, by simp [setObj, hltt], ha',
          ⟨trivial, rfl, rfl, by simp, by simp⟩, rfl⟩
      · refine ⟨o', ?_, hal, hch, hnum⟩
        simp only [setObj]
        rw [List.getElem?_set_ne (Ne.symm hne)]
        simp [hltd]
      · obtain ⟨u, u1, u2, u3, u4⟩ := r.obj h
        refine ⟨u, ?_, u2, hf.chain (fun y hy => notin h1 h2 h y hy) u3, u4⟩
        simp only [setObj]
        rw [List.getElem?_set_ne (Ne.symm h1), List.getElem?_set_ne (Ne.symm h2)]
        exact u1
    · intro i j as bs hij hi hj x hx hx'
      rcases key hi with ⟨rfl, rfl⟩ | ⟨rfl, rfl⟩ | ⟨h1, h2, h⟩
      · simp at hx
      · rcases key hj with ⟨rfl, rfl⟩ | ⟨rfl, rfl⟩ | ⟨h1', h2', h'⟩
        · simp at hx'
        · exact hij rfl
        · exact notin h1' h2' h' x hx' hx
      · rcases key hj with ⟨rfl, rfl⟩ | ⟨rfl, rfl⟩ | ⟨h1', h2', h'⟩
        · simp at hx'
        · exact notin h1 h2 h x hx hx'
        · exact r.disj hij h h' x hx hx'
    · intro x hx
      have := r.looseOk hx
      exact ⟨by rw [hlv]; exact this.1, by show h'.pv x = _; rw [hf.pv x (lnot x hx)]; exact this.2.1,
        by show h'.nx x = _; rw [hf.nx x (lnot x hx)]; exact this.2.2⟩
    · intro i q h x hx hx'
      rcases key h with ⟨rfl, rfl⟩ | ⟨rfl, rfl⟩ | ⟨h1, h2, h⟩
      · simp at hx
      · exact lnot x hx' hx
      · exact r.looseDisj h x hx hx'
    · intro x hx
      rw [hlv] at hx
      have inj : x ∈ xs ++ ys → x ∈ s.loose ∨
          ∃ (l : Nat) (q : List Nat), ((s.seqs.set d (some (xs ++ ys))).set t (some []))[l]? = some (some q) ∧ x ∈ q := by
        intro h
        refine Or.inr ⟨d, xs ++ ys, ?_, h⟩
        rw [List.getElem?_set_ne (Ne.symm hne)]
        simp [hltd']
      rcases r.own hx with h | ⟨i, q, h, hq⟩
      · exact Or.inl h
      · by_cases h1 : i = t
        · subst h1; rw [ht] at h; cases h; exact inj (by simp [hq])
        · by_cases h2 : i = d
          · subst h2; rw [hd] at h; cases h; exact inj (by simp [hq])
          · refine Or.inr ⟨i, q, ?_, hq⟩
            show ((s.seqs.set d (some (xs ++ ys))).set t (some []))[i]? = _
            rw [List.getElem?_set_ne (Ne.symm h1), List.getElem?_set_ne (Ne.symm h2)]
            exact h
  have hndp : (xs ++ ys).Nodup := List.nodup_append.2 ⟨hc.nodup, hc'.nodup, fun a ha b hb e => hdt a ha (e ▸ hb)⟩
  cases hys : ys with
  | nil =>
    subst hys
    have hf : p.ends.first = none := hc'.first
    refine ⟨w, by simp [detachAllAndAppend, ho, hp, hf], ?_⟩
    have e : setSeq (setSeq s d (some (xs ++ []))) t (some []) = s := by
      rw [List.append_nil, setSeq_self hd, setSeq_self ht]
    rw [e]; exact r
  | cons tf ys' =>
    have hf : p.ends.first = some tf := by rw [hc'.first, hys]; rfl
    have hltf : w.lh.live tf = true := hc'.live tf (by simp [hys])
    rw [← hys]
    cases hol : o.ends.last with
    | none =>
      have hxs : xs = [] := by
        have := hc.last
        rw [hol] at this
        cases xs with
        | nil => rfl
        | cons a as => rw [List.getLast?_cons] at this; cases this
      have hgo : ∀ (W' : W α) (S' : S α), R W' S' → detachAllAndAppend w d t = .ok W' →
          ∃ w', detachAllAndAppend w d t = .ok w' ∧ R w' S' := fun W' S' h1 h2 => ⟨W', h2, h1⟩
      refine hgo _ _ (fin w.lh { o with ends := p.ends, num := o.num + p.num } ha ?_ ?_ ⟨rfl, fun _ _ => rfl, fun _ _ => rfl⟩)
        (by simp only [detachAllAndAppend, ho, hp, ok_bind, hf, hol])
      · subst hxs; exact hc'
      · simp [hn, hn', hxs]
    | some dl =>
      have hld : w.lh.live dl = true := hc.live dl (List.mem_of_getLast? (by rw [← hc.last]; exact hol))
      have hgo : ∀ (W' : W α) (S' : S α), R W' S' → detachAllAndAppend w d t = .ok W' →
          ∃ w', detachAllAndAppend w d t = .ok w' ∧ R w' S' := fun W' S' h1 h2 => ⟨W', h2, h1⟩
      refine hgo _ _ (fin { w.lh with nx := upd w.lh.nx dl (some tf), pv := upd w.lh.pv tf (some dl) }
            { o with ends := { o.ends with last := p.ends.last }, num := o.num + p.num } ha ?_ (by simp [hn, hn']) ?_)
        (by simp only [detachAllAndAppend, ho, hp, ok_bind, hf, hol, setNx, hld, if_true, setPv, hltf])
      · have hl1 : xs.getLast? = some dl := by rw [← hc.last]; exact hol
        have hdl : dl ∈ xs := List.mem_of_getLast? hl1
        have htf : tf ∈ ys := by simp [hys]
        refine ⟨?_, ?_, ?_, fun y hy => ?_, hndp⟩
        · rw [seg_append]
          constructor
          · have h1 := seg_last (some tf) hc.seg hc.nodup
            have e1 : updLast w.lh.nx xs (some tf) = upd w.lh.nx dl (some tf) := by simp [updLast, hl1]
            rw [e1] at h1
            have e2 : ys.head?.or none = some tf := by simp [hys]
            rw [e2]
            refine seg_congr (fun y hy => ⟨?_, rfl⟩) h1
            exact upd_other _ _ (fun e => hdt y hy (e ▸ htf))
          · have h1 := seg_head (some dl) hc'.seg hc'.nodup
            have e1 : updHead w.lh.pv ys (some dl) = upd w.lh.pv tf (some dl) := by simp [updHead, hys]
            rw [e1] at h1
            have e2 : xs.getLast?.or none = some dl := by simp [hl1]
            rw [e2]
            refine seg_congr (fun y hy => ⟨rfl, ?_⟩) h1
            exact upd_other _ _ (fun e => hdt dl hdl (e ▸ hy))
        · show o.ends.first = _
          rw [hc.first]
          cases hxs : xs with
          | nil => rw [hxs] at hdl; simp at hdl
          | cons a as => simp
        · show p.ends.last = _
          rw [hc'.last, List.getLast?_append, hys, List.getLast?_cons]
          simp
        · rcases List.mem_append.1 hy with h | h
          · exact hc.live y h
          · exact hc'.live y h
      · refine ⟨rfl, fun y hy => upd_other _ _ ?_, fun y hy => upd_other _ _ ?_⟩
        · intro e; exact hy (by simp [e, hys])
        · intro e
          have : dl ∈ xs := List.mem_of_getLast? (by rw [← hc.last]; exact hol)
          exact hy (by simp [e, this])

theorem construct_seq (s : S α) : ({ s with seqs := s.seqs ++ [some []] } : S α).seqs[s.seqs.length]? = some (some []) := by
  simp

/-- Every legal call returns what the specification says and keeps the relation. -/
theorem step_refines {w : W α} {s s' : S α} (r : R w s) (op : Op α) {ret : Ret} (h : Spec.step s op = some (ret, s')) :
    ∃ w', step w op = .ok (ret, w') ∧ R w' s' := by
  cases op with
  | construct =>
    cases h
    exact ⟨_, rfl, r.construct⟩
  | constructV v =>
    simp only [Spec.step] at h
    obtain ⟨s1, h1, h⟩ := bind_some h
    cases h
    simp only [pushAll] at h1
    obtain ⟨s2, h2, h1⟩ := bind_some h1
    cases h1
    obtain ⟨w', hw, r'⟩ := insertBeforeV_ok r.construct (n := none) h2
    exact ⟨w', by simp [step, constructV, r.len, hw], r'⟩
  | copyConstruct src =>
    simp only [Spec.step] at h
    obtain ⟨xs, hs, h⟩ := bind_some h
    obtain ⟨s1, h1, h⟩ := bind_some h
    cases h
    have hs := seq_some.1 hs
    have hlt : src < s.seqs.length := (List.getElem?_eq_some_iff.1 hs).1
    obtain ⟨o, ho, -, ha, hc, hn⟩ := getObj_ok r hs
    have hs' : ({ s with seqs := s.seqs ++ [some []] } : S α).seqs[src]? = some (some ([] ++ xs)) := by
      show (s.seqs ++ [some []])[src]? = _
      rw [List.getElem?_append_left hlt]; exact hs
    obtain ⟨w', s2, hw, hs2, r'⟩ := copyLoop_ok xs (w.fresh + 1) (construct w) _ r.construct src s.seqs.length [] []
      (by omega) hs' (construct_seq s) (by have := r.length_le hs; omega)
    rw [h1] at hs2
    cases hs2
    refine ⟨w', ?_, r'⟩
    simp only [step, copyConstruct, ho, ok_bind, hc.first, r.len]
    rw [hw]; rfl
  | assign d src =>
    simp only [Spec.step] at h
    obtain ⟨ds, hd, h⟩ := bind_some h
    obtain ⟨xs, hs, h⟩ := bind_some h
    have hs := seq_some.1 hs
    have hd := seq_some.1 hd
    by_cases he : d = src
    · rw [if_pos he] at h
      cases h
      obtain ⟨o, ho, -⟩ := getObj_ok r hd
      exact ⟨w, by simp [step, assign, he.symm, ho], r⟩
    · rw [if_neg he] at h
      obtain ⟨s1, h1, h⟩ := bind_some h
      cases h
      obtain ⟨w1, hw1, f1, r1⟩ := r.empty hd
      have hs1 : (setSeq s d (some [])).seqs[src]? = some (some ([] ++ xs)) := by
        show (s.seqs.set d _)[src]? = _
        rw [List.getElem?_set_ne he]; exact hs
      obtain ⟨o, ho, -, ha, hc, hn⟩ := getObj_ok r1 hs1
      obtain ⟨w', s2, hw, hs2, r'⟩ := copyLoop_ok xs (w1.fresh + 1) w1 _ r1 src d [] []
        (fun e => he e.symm) hs1 (seqs_set hd) (by have := r1.length_le hs1; simpa using Nat.lt_succ_of_le this)
      have e : xs.map (setSeq s d (some [])).val = xs.map s.val := rfl
      rw [e, h1] at hs2
      cases hs2
      refine ⟨w', ?_, r'⟩
      have hfst : o.ends.first = xs.head? := by rw [hc.first]; rfl
      simp only [step, assign, hw1, ok_bind, ho, hfst]
      rw [if_neg (fun e => he e.symm), hw]; rfl
  | destroy l =>
    simp only [Spec.step] at h
    obtain ⟨xs, hs, h⟩ := bind_some h
    cases h
    have hs := seq_some.1 hs
    obtain ⟨w1, hw1, f1, r1⟩ := r.empty hs
    obtain ⟨o, ho, -⟩ := getObj_ok r1 (seqs_set hs)
    have r2 := r1.kill (seqs_set hs) { o with alive := false }
    rw [setSeq_setSeq] at r2
    exact ⟨_, by simp [step, destroy, hw1, ho], r2⟩
  | createNode v =>
    cases h
    obtain ⟨r1, e⟩ := r.create v
    exact ⟨_, by simp only [step, e], r1⟩
  | deleteNode x =>
    simp only [Spec.step] at h
    by_cases hx : x ∈ s.loose
    · rw [if_pos hx] at h
      cases h
      obtain ⟨w', hw, -, r'⟩ := r.delete hx
      exact ⟨w', by simp [step, hw], r'⟩
    · rw [if_neg hx] at h; cases h
  | setValue x v =>
    simp only [Spec.step] at h
    split at h
    next hx =>
      cases h
      have hl : w.lh.live x = true := by
        rcases hx with hx | hx
        · exact (r.looseOk hx).1
        · rw [List.any_eq_true] at hx
          obtain ⟨q, hq, hx⟩ := hx
          cases q with
          | none => simp at hx
          | some xs =>
            obtain ⟨l, hl⟩ := List.getElem?_of_mem hq
            obtain ⟨o, -, -, hc, -⟩ := r.obj hl
            exact hc.live x (by simpa using hx)
      refine ⟨{ w with val := upd w.val x v }, by simp only [step, hl, if_true], ⟨r.len, r.obj, r.disj, r.looseOk, r.looseNd, r.looseDisj, r.own, r.fresh,
        r.bound, fun {y} hy => ?_⟩⟩
      show upd w.val x v y = upd s.val x v y
      by_cases e : y = x
      · simp [e]
      · rw [upd_other _ _ e, upd_other _ _ e]; exact r.val hy
    next => cases h
  | insertBeforeV l n v =>
    simp only [Spec.step, insertVal] at h
    obtain ⟨s1, h1, h⟩ := bind_some h
    cases h
    obtain ⟨w', hw, r'⟩ := insertBeforeV_ok r h1
    exact ⟨w', by simp [step, hw], r'⟩
  | insertAfterV l n v =>
    simp only [Spec.step, insertVal] at h
    obtain ⟨s1, h1, h⟩ := bind_some h
    cases h
    obtain ⟨w', hw, r'⟩ := insertAfterV_ok r h1
    exact ⟨w', by simp [step, hw], r'⟩
  | insertBeforeN l n x =>
    obtain ⟨res, w', hw, rfl, r'⟩ := insertBeforeN_ok r h
    exact ⟨w', by simp [step, hw], r'⟩
  | insertAfterN l n x =>
    obtain ⟨res, w', hw, rfl, r'⟩ := insertAfterN_ok r h
    exact ⟨w', by simp [step, hw], r'⟩
  | pop l =>
    simp only [Spec.step] at h
    obtain ⟨xs, hs, h⟩ := bind_some h
    have hs := seq_some.1 hs
    obtain ⟨o, ho, -, ha, hc, hn⟩ := getObj_ok r hs
    rcases List.eq_nil_or_concat xs with rfl | ⟨ys, x, rfl⟩
    · cases h
      have : o.ends.last = none := hc.last
      exact ⟨w, by simp [step, pop, ho, this, detach], r⟩
    · simp only [List.concat_eq_append] at *
      simp only [List.getLast?_append, List.getLast?_singleton, Option.some_or, List.dropLast_concat] at h
      cases h
      have hl : o.ends.last = some x := by rw [hc.last]; simp
      obtain ⟨w', hw, -, r'⟩ := r.detach hs (x := x) (by simp)
      have e : (ys ++ [x]).erase x = ys := by
        have : x ∉ ys := by
          have := List.nodup_append.1 hc.nodup
          exact fun h => this.2.2 x h x (by simp) rfl
        rw [List.erase_append_right _ this]; simp
      rw [e] at r'
      exact ⟨w', by simp [step, pop, ho, hl, hw], r'⟩
  | shift l =>
    simp only [Spec.step] at h
    obtain ⟨xs, hs, h⟩ := bind_some h
    have hs := seq_some.1 hs
    obtain ⟨o, ho, -, ha, hc, hn⟩ := getObj_ok r hs
    cases xs with
    | nil =>
      cases h
      have : o.ends.first = none := hc.first
      exact ⟨w, by simp [step, shift, ho, this, detach], r⟩
    | cons x xs =>
      cases h
      have hl : o.ends.first = some x := hc.first
      obtain ⟨w', hw, -, r'⟩ := r.detach hs (x := x) (by simp)
      have e : (x :: xs).erase x = xs := by simp
      rw [e] at r'
      exact ⟨w', by simp [step, shift, ho, hl, hw], r'⟩
  | detach l n =>
    simp only [Spec.step] at h
    obtain ⟨xs, hs, h⟩ := bind_some h
    cases n with
    | none => cases h; exact ⟨w, rfl, r⟩
    | some x =>
      obtain ⟨s1, h1, h⟩ := bind_some h
      cases h
      obtain ⟨ys, hs', h1⟩ := bind_some h1
      rw [hs] at hs'
      cases hs'
      by_cases hx : x ∈ xs
      · rw [if_pos hx] at h1
        cases h1
        obtain ⟨w', hw, -, r'⟩ := r.detach (seq_some.1 hs) hx
        exact ⟨w', by simp [step, hw], r'⟩
      · rw [if_neg hx] at h1; cases h1
  | remove l n =>
    simp only [Spec.step] at h
    obtain ⟨xs, hs, h⟩ := bind_some h
    cases n with
    | none => cases h; exact ⟨w, rfl, r⟩
    | some x =>
      obtain ⟨s1, h1, h⟩ := bind_some h
      cases h
      obtain ⟨ys, hs', h1⟩ := bind_some h1
      rw [hs] at hs'
      cases hs'
      by_cases hx : x ∈ xs
      · rw [if_pos hx] at h1
        cases h1
        obtain ⟨w', hw, -, r'⟩ := r.remove (seq_some.1 hs) hx
        exact ⟨w', by simp [step, hw], r'⟩
      · rw [if_neg hx] at h1; cases h1
  | empty l =>
    simp only [Spec.step] at h
    obtain ⟨xs, hs, h⟩ := bind_some h
    cases h
    obtain ⟨w', hw, -, r'⟩ := r.empty (seq_some.1 hs)
    exact ⟨w', by simp [step, hw], r'⟩
  | detachAllAndAppend d t =>
    simp only [Spec.step] at h
    obtain ⟨xs, hd, h⟩ := bind_some h
    obtain ⟨ys, ht, h⟩ := bind_some h
    by_cases he : d = t
    · rw [if_pos he] at h; cases h
    · rw [if_neg he] at h
      cases h
      obtain ⟨w', hw, r'⟩ := detachAll_ok r he (seq_some.1 hd) (seq_some.1 ht)
      exact ⟨w', by simp [step, hw], r'⟩
  | size l =>
    simp only [Spec.step] at h
    obtain ⟨xs, hs, h⟩ := bind_some h
    cases h
    obtain ⟨o, ho, -, ha, hc, hn⟩ := getObj_ok r (seq_some.1 hs)
    exact ⟨w, by simp [step, ho, hn], r⟩

theorem run_refines : ∀ (ops : List (Op α)) {w : W α} {s s' : S α} {rs : List Ret} (_ : R w s)
    (_ : Spec.run s ops = some (rs, s')), ∃ w', run w ops = .ok (rs, w') ∧ R w' s'
  | [], w, s, s', rs, r, h => by cases h; exact ⟨w, rfl, r⟩
  | op :: ops, w, s, s', rs, r, h => by
    simp only [Spec.run] at h
    obtain ⟨⟨r1, s1⟩, h1, h⟩ := bind_some h
    obtain ⟨⟨r2, s2⟩, h2, h⟩ := bind_some h
    cases h
    obtain ⟨w1, hw1, R1⟩ := step_refines r op h1
    obtain ⟨w2, hw2, R2⟩ := run_refines ops R1 h2
    exact ⟨w2, by simp [run, hw1, hw2], R2⟩

theorem R.empty_world (dflt : α) : R (W.empty dflt) (S.empty dflt) := by
  refine ⟨rfl, ?_, ?_, ?_, ?_, ?_, ?_, rfl, ?_, ?_⟩ <;> simp [W.empty, S.empty]

/-! ## Walking the list -/

theorem walkNext_ok {w : W α} {s : S α} (r : R w s) : ∀ (rest : List Nat) (k : Nat) (p : Option Nat),
    Seg w.lh.pv w.lh.nx p rest none → (∀ x ∈ rest, w.lh.live x = true) → rest.length < k →
    walkNext k w rest.head? = .ok (rest.map fun x => (x, s.val x))
  | [], k + 1, p, _, _, _ => rfl
  | x :: rest, k + 1, p, hs, hl, hk => by
    have hlx := hl x (by simp)
    have hnx : w.lh.nx x = rest.head? := by have := hs.2.1; simpa using this
    have ih := walkNext_ok r rest k (some x) hs.2.2 (fun y hy => hl y (by simp [hy]))
      (by simp only [List.length_cons] at hk; omega)
    simp only [List.head?_cons, walkNext, getVal, getNx, hlx, if_true, ok_bind, hnx, ih, r.val hlx, List.map_cons]

theorem walkPrev_ok {w : W α} {s : S α} (r : R w s) : ∀ (rest : List Nat) (k : Nat) (n : Option Nat),
    Seg w.lh.pv w.lh.nx none rest.reverse n → (∀ x ∈ rest, w.lh.live x = true) → rest.length < k →
    walkPrev k w rest.head? = .ok (rest.map fun x => (x, s.val x))
  | [], k + 1, p, _, _, _ => rfl
  | x :: rest, k + 1, n, hs, hl, hk => by
    have hlx := hl x (by simp)
    rw [List.reverse_cons, seg_append] at hs
    have hpx : w.lh.pv x = rest.head? := by have := hs.2.1; simpa using this
    have ih := walkPrev_ok r rest k (some x) (by simpa using hs.1) (fun y hy => hl y (by simp [hy]))
      (by simp only [List.length_cons] at hk; omega)
    simp only [List.head?_cons, walkPrev, getVal, getPv, hlx, if_true, ok_bind, hpx, ih, r.val hlx, List.map_cons]

theorem forward_ok {w : W α} {s : S α} (r : R w s) {l : Nat} {xs : List Nat} (hl : seq s l = some xs) :
    forward w l = .ok (xs.map fun x => (x, s.val x)) := by
  have hl := seq_some.1 hl
  obtain ⟨o, ho, -, ha, hc, hn⟩ := getObj_ok r hl
  unfold forward
  rw [ho]
  simp only [ok_bind, hc.first]
  exact walkNext_ok r xs _ none hc.seg hc.live (by have := r.length_le hl; omega)

theorem backward_ok {w : W α} {s : S α} (r : R w s) {l : Nat} {xs : List Nat} (hl : seq s l = some xs) :
    backward w l = .ok (xs.reverse.map fun x => (x, s.val x)) := by
  have hl := seq_some.1 hl
  obtain ⟨o, ho, -, ha, hc, hn⟩ := getObj_ok r hl
  unfold backward
  rw [ho]
  simp only [ok_bind, hc.last]
  have := walkPrev_ok r xs.reverse (w.fresh + 1) none (by simpa using hc.seg) (by simpa using hc.live)
    (by have := r.length_le hl; simp; omega)
  simpa using this

/-- **C14**.  For every history of calls that is legal according to the specification (nodes in their documented state),
the code has no undefined behaviour, returns what the specification says, walking forwards and backwards from the ends
visits exactly the nodes and values of the abstract sequence, `GetSize` is its length, and exactly the nodes that are in
a list or loose are allocated (nothing leaks, nothing is freed early). -/
theorem list_is_sequence (dflt : α) (ops : List (Op α)) (rs : List Ret) (s : S α)
    (h : Spec.run (S.empty dflt) ops = some (rs, s)) :
    ∃ w, run (W.empty dflt) ops = .ok (rs, w) ∧
      (∀ l xs, seq s l = some xs →
        forward w l = .ok (xs.map fun x => (x, s.val x)) ∧
        backward w l = .ok (xs.reverse.map fun x => (x, s.val x)) ∧
        step w (.size l) = .ok (.num xs.length, w)) ∧
      (∀ x, w.lh.live x = true ↔ x ∈ s.loose ∨ ∃ l xs, seq s l = some xs ∧ x ∈ xs) := by
  obtain ⟨w, hw, r⟩ := run_refines ops (R.empty_world dflt) h
  refine ⟨w, hw, fun l xs hl => ⟨forward_ok r hl, backward_ok r hl, ?_⟩, fun x => ⟨fun hx => ?_, fun hx => ?_⟩⟩
  · obtain ⟨o, ho, -, ha, hc, hn⟩ := getObj_ok r (seq_some.1 hl)
    simp [step, ho, hn]
  · rcases r.own hx with h | ⟨l, xs, h, hx⟩
    · exact Or.inl h
    · exact Or.inr ⟨l, xs, seq_some.2 h, hx⟩
  · rcases hx with h | ⟨l, xs, h, hx⟩
    · exact (r.looseOk h).1
    · obtain ⟨o, -, -, hc, -⟩ := r.obj (seq_some.1 h)
      exact hc.live x hx

/-- A history with two lists, moves between them, removal in the middle, a copy and an assignment is legal. -/
example : ∃ rs s, Spec.run (S.empty (0 : Nat))
    [.construct, .insertBeforeV 0 none 10, .insertBeforeV 0 none 20, .insertAfterV 0 none 5, .insertBeforeV 0 (some 1) 15,
     .copyConstruct 0, .detach 0 (some 1), .insertAfterN 1 (some 4) 1, .insertBeforeN 0 none 1, .pop 1,
     .detachAllAndAppend 0 1, .remove 0 (some 2), .construct, .assign 2 0, .shift 2, .size 0, .destroy 1] = some (rs, s) ∧
    (seq s 0).map (·.map s.val) = some [10, 15, 5, 20, 10, 15] ∧ (seq s 2).map (·.map s.val) = some [15, 5, 20, 10, 15] :=
  ⟨_, _, rfl, by decide, by decide⟩

/-! ## C15: detach and re-attach -/

/-- `x` occurs once and the rest is kept in order. -/
theorem erase_middle {as bs : List Nat} {x : Nat} (h : (as ++ x :: bs).Nodup) : (as ++ x :: bs).erase x = as ++ bs := by
  have hx : x ∉ as := by
    rw [List.nodup_append] at h
    exact fun h' => h.2.2 x h' x (by simp) rfl
  rw [List.erase_append_right _ hx]; simp

/-- **C15** (partial: an attached node that is the only one in its list is not refused, see
`singleton_not_refused`).  After any legal history, with a list holding nodes `as ++ x :: bs`:
`Detach(x)` succeeds and leaves exactly `as ++ bs` with all values; `x` keeps its value and can then be inserted before
any node of any list (or at its end), giving that list's sequence with `x` at that place; and inserting `x` while it
still has a neighbour is refused, changing nothing. -/
theorem detach_reattach_partial (dflt : α) (ops : List (Op α)) (rs : List Ret) (s : S α)
    (h : Spec.run (S.empty dflt) ops = some (rs, s)) (l x : Nat) (as bs : List Nat)
    (hl : seq s l = some (as ++ x :: bs)) :
    ∃ w w', run (W.empty dflt) ops = .ok (rs, w) ∧ step w (.detach l (some x)) = .ok (.bool true, w') ∧
      forward w' l = .ok ((as ++ bs).map fun y => (y, s.val y)) ∧
      (∀ m cs ds, seq s m = some (cs ++ ds) → m ≠ l →
        ∃ w'', step w' (.insertBeforeN m ds.head? x) = .ok (.node (some x), w'') ∧
          forward w'' m = .ok ((cs ++ x :: ds).map fun y => (y, s.val y)) ∧
          forward w'' l = .ok ((as ++ bs).map fun y => (y, s.val y))) ∧
      (∀ cs ds, as ++ bs = cs ++ ds →
        ∃ w'', step w' (.insertBeforeN l ds.head? x) = .ok (.node (some x), w'') ∧
          forward w'' l = .ok ((cs ++ x :: ds).map fun y => (y, s.val y))) ∧
      (as ++ bs ≠ [] → ∀ m n, (∃ q, seq s m = some q) →
        step w (.insertBeforeN m n x) = .ok (.node none, w) ∧ step w (.insertAfterN m n x) = .ok (.node none, w)) := by
  obtain ⟨w, hw, r⟩ := run_refines ops (R.empty_world dflt) h
  obtain ⟨o, -, -, hc, -⟩ := r.obj (seq_some.1 hl)
  have he := erase_middle hc.nodup
  have h1 : Spec.step s (.detach l (some x)) =
      some (.bool true, { setSeq s l (some (as ++ bs)) with loose := x :: s.loose }) := by
    simp [Spec.step, hl, Spec.take, he]
  obtain ⟨w', hw', r'⟩ := step_refines r _ h1
  have hltl : l < s.seqs.length := (List.getElem?_eq_some_iff.1 (seq_some.1 hl)).1
  -- inserting `x` before the head of `ds`
  have ins : ∀ m cs ds, seq ({ setSeq s l (some (as ++ bs)) with loose := x :: s.loose } : S α) m = some (cs ++ ds) →
      ∃ w'' s'', step w' (.insertBeforeN m ds.head? x) = .ok (.node (some x), w'') ∧ R w'' s'' ∧
        s''.val = s.val ∧ s''.seqs = (s.seqs.set l (some (as ++ bs))).set m (some (cs ++ x :: ds)) := by
    intro m cs ds hm
    obtain ⟨om, -, -, hcm, -⟩ := r'.obj (seq_some.1 hm)
    have hins : insBefore (cs ++ ds) x ds.head? = some (cs ++ x :: ds) := by
      cases ds with
      | nil => simp [insBefore]
      | cons d ds =>
        simp only [insBefore, List.head?_cons]
        rw [if_pos (by simp)]
        congr 1
        have hd : d ∉ cs := by
          have := List.nodup_append.1 hcm.nodup
          exact fun h' => this.2.2 d h' d (by simp) rfl
        clear hcm hm
        induction cs with
        | nil => simp [before]
        | cons c cs ih =>
          have : c ≠ d := fun e => hd (by simp [e])
          simp [before, this, ih (fun e => hd (by simp [e]))]
    have h2 : Spec.step ({ setSeq s l (some (as ++ bs)) with loose := x :: s.loose } : S α) (.insertBeforeN m ds.head? x) =
        some (.node (some x), { setSeq { setSeq s l (some (as ++ bs)) with loose := x :: s.loose } m (some (cs ++ x :: ds)) with
          loose := (x :: s.loose).erase x }) := by
      simp only [Spec.step, insertNode, place]
      rw [if_pos (by simp), hm]
      simp only [Option.bind_eq_bind, Option.bind_some]
      rw [hins]
      rfl
    obtain ⟨w'', hw'', r''⟩ := step_refines r' _ h2
    exact ⟨w'', _, hw'', r'', rfl, rfl⟩
  refine ⟨w, w', hw, hw', ?_, ?_, ?_, ?_⟩
  · exact forward_ok r' (seq_some.2 (seqs_set (seq_some.1 hl)))
  · intro m cs ds hm hne
    have hltm : m < s.seqs.length := (List.getElem?_eq_some_iff.1 (seq_some.1 hm)).1
    obtain ⟨w'', s'', h2, r'', hv, hsq⟩ := ins m cs ds (seq_some.2 (by
      show (s.seqs.set l _)[m]? = _
      rw [List.getElem?_set_ne (Ne.symm hne)]; exact seq_some.1 hm))
    refine ⟨w'', h2, ?_, ?_⟩
    · rw [← hv]
      exact forward_ok r'' (seq_some.2 (by rw [hsq]; simp [hltm]))
    · rw [← hv]
      refine forward_ok r'' (seq_some.2 ?_)
      rw [hsq, List.getElem?_set_ne hne]
      simp [hltl]
  · intro cs ds hcs
    obtain ⟨w'', s'', h2, r'', hv, hsq⟩ := ins l cs ds (seq_some.2 (by
      show (s.seqs.set l _)[l]? = _
      rw [← hcs]; simp [hltl]))
    refine ⟨w'', h2, ?_⟩
    rw [← hv]
    exact forward_ok r'' (seq_some.2 (by rw [hsq]; simp [hltl]))
  · intro hne m n ⟨q, hq⟩
    have hnb : hasNeighbour s x = true := by
      unfold hasNeighbour
      rw [List.any_eq_true]
      refine ⟨some (as ++ x :: bs), List.mem_of_getElem? (seq_some.1 hl), ?_⟩
      simp only [decide_eq_true_eq]
      refine ⟨by simp, ?_⟩
      have : 0 < (as ++ bs).length := List.length_pos_iff.2 hne
      simp at this ⊢
      omega
    obtain ⟨om, hom, -⟩ := getObj_ok r (seq_some.1 hq)
    have ht := attachedTest_neighbour r hnb
    exact ⟨by simp [step, insertBeforeN, hom, ht], by simp [step, insertAfterN, hom, ht]⟩

/-- The hypotheses are met by a list with the node in the middle. -/
example : ∃ rs s, Spec.run (S.empty (0 : Nat)) [.constructV 1, .insertBeforeV 0 none 2, .insertBeforeV 0 none 3] = some (rs, s) ∧
    seq s 0 = some ([0] ++ 1 :: [2]) := ⟨_, _, rfl, by decide⟩

/-- The only node of a list passes the test for being detached: it ends up in two lists, each believing to own it. -/
theorem singleton_not_refused :
    ∃ rs w, run (W.empty (0 : Nat)) [.constructV 7, .construct, .insertBeforeN 1 none 0] = .ok (rs, w) ∧
      rs = [.void, .void, .node (some 0)] ∧ forward w 0 = .ok [(0, 7)] ∧ forward w 1 = .ok [(0, 7)] :=
  ⟨_, _, rfl, by decide, by decide, by decide⟩

/-- Destroying both lists then frees the node twice. -/
theorem singleton_double_free :
    run (W.empty (0 : Nat)) [.constructV 7, .construct, .insertBeforeN 1 none 0, .destroy 0, .destroy 1] = .error .badPtr :=
  rfl

/-- Detaching a node that is not in the list goes unnoticed and corrupts the count. -/
theorem detach_foreign_corrupts_count :
    ∃ w, run (W.empty (0 : Nat)) [.construct, .createNode 7, .detach 0 (some 0), .size 0] =
      .ok ([.void, .node (some 0), .bool true, .num 18446744073709551615], w) := ⟨_, rfl⟩

/-- Appending a list to itself empties it and leaks its nodes. -/
theorem self_append_loses_nodes :
    ∃ rs w, run (W.empty (0 : Nat)) [.constructV 7, .detachAllAndAppend 0 0] = .ok (rs, w) ∧
      forward w 0 = .ok [] ∧ w.lh.live 0 = true := ⟨_, _, rfl, by decide, by decide⟩

/-! ## C16: copies -/

/-- What pushing values does to the abstract state. -/
theorem pushAll_spec : ∀ (vs : List α) {s s' : S α} {d : Nat} {ds : List Nat} (_ : s.seqs[d]? = some (some ds))
    (_ : pushAll s d vs = some s'),
    s'.seqs = s.seqs.set d (some (ds ++ List.range' s.fresh vs.length)) ∧
      (List.range' s.fresh vs.length).map s'.val = vs ∧ (∀ x, x < s.fresh → s'.val x = s.val x) ∧ s.fresh ≤ s'.fresh
  | [], s, s', d, ds, hd, h => by
    cases h
    have := setSeq_self hd
    refine ⟨?_, rfl, fun _ _ => rfl, Nat.le_refl _⟩
    have e := congrArg S.seqs this
    simp only [setSeq] at e
    simp [e]
  | v :: vs, s, s', d, ds, hd, h => by
    simp only [pushAll] at h
    obtain ⟨s1, h1, h⟩ := bind_some h
    have e : place (create s v) d s.fresh (fun xs => some (xs ++ [s.fresh])) = _ := push_state s d ds v hd
    rw [e] at h1
    cases h1
    have hd1 : ({ setSeq s d (some (ds ++ [s.fresh])) with val := upd s.val s.fresh v, fresh := s.fresh + 1 } : S α).seqs[d]?
        = some (some (ds ++ [s.fresh])) := seqs_set hd
    obtain ⟨h2, h3, h4, h5⟩ := pushAll_spec vs hd1 h
    simp only at h2 h3 h4 h5
    refine ⟨?_, ?_, fun x hx => ?_, by omega⟩
    · rw [h2]
      simp [setSeq, List.range'_succ]
    · simp only [List.length_cons, List.range'_succ, List.map_cons]
      rw [h3, h4 _ (by omega)]
      simp
    · rw [h4 x (by omega)]
      exact upd_other _ _ (by omega)

/-- **C16**, equality.  After any legal history, copy construction and assignment (also to a list with contents) give a
list with the values of the source in order, made of nodes the source does not have, and leave the source as it was. -/
theorem copy_equals_source (dflt : α) (ops : List (Op α)) (rs : List Ret) (s : S α)
    (h : Spec.run (S.empty dflt) ops = some (rs, s)) (src : Nat) (xs : List Nat) (hs : seq s src = some xs) :
    ∃ w, run (W.empty dflt) ops = .ok (rs, w) ∧
      (∃ (w' : W α) (ys : List Nat), step w (.copyConstruct src) = .ok (.void, w') ∧
        forward w' src = .ok (xs.map fun x => (x, s.val x)) ∧
        forward w' s.seqs.length = .ok (ys.zip (xs.map s.val)) ∧ ys.length = xs.length ∧ (∀ y ∈ ys, y ∉ xs)) ∧
      (∀ d ds, seq s d = some ds → d ≠ src →
        ∃ (w' : W α) (ys : List Nat), step w (.assign d src) = .ok (.void, w') ∧
          forward w' src = .ok (xs.map fun x => (x, s.val x)) ∧
          forward w' d = .ok (ys.zip (xs.map s.val)) ∧ ys.length = xs.length ∧ (∀ y ∈ ys, y ∉ xs)) ∧
      step w (.assign src src) = .ok (.void, w) := by
  obtain ⟨w, hw, r⟩ := run_refines ops (R.empty_world dflt) h
  obtain ⟨o, ho, -, ha, hc, hn⟩ := getObj_ok r (seq_some.1 hs)
  have hlt : src < s.seqs.length := (List.getElem?_eq_some_iff.1 (seq_some.1 hs)).1
  have hb : ∀ x ∈ xs, x < s.fresh := fun x hx => by
    have := r.bound (hc.live x hx); rw [r.fresh] at this; exact this
  have zipmap : ∀ (f : Nat → α) (ys : List Nat), ys.map (fun y => (y, f y)) = ys.zip (ys.map f) := by
    intro f ys
    induction ys with
    | nil => rfl
    | cons y ys ih => simp [ih]
  have notin : ∀ n, ∀ y ∈ List.range' s.fresh n, y ∉ xs := by
    intro n y hy hx
    have := hb y hx
    rw [List.mem_range'] at hy
    obtain ⟨i, _, rfl⟩ := hy
    omega
  have exPush : ∀ (s0 : S α) (d : Nat), s0.seqs[d]? = some (some []) → ∀ (vs : List α) (ds : List Nat) (s1 : S α),
      s1.seqs[d]? = some (some ds) → ∃ s2, pushAll s1 d vs = some s2 := by
    intro s0 d _ vs
    induction vs with
    | nil => intro ds s1 _; exact ⟨s1, rfl⟩
    | cons v vs ih =>
      intro ds s1 h1
      have e : place (create s1 v) d s1.fresh (fun xs => some (xs ++ [s1.fresh])) = _ := push_state s1 d ds v h1
      obtain ⟨s2, h2⟩ := ih (ds ++ [s1.fresh])
        { setSeq s1 d (some (ds ++ [s1.fresh])) with val := upd s1.val s1.fresh v, fresh := s1.fresh + 1 } (seqs_set h1)
      exact ⟨s2, by simp only [pushAll, e]; exact h2⟩
  refine ⟨w, hw, ?_, ?_, by simp [step, assign, ho]⟩
  · have hnew := construct_seq s
    obtain ⟨s2, h2⟩ := exPush _ _ hnew (xs.map s.val) [] { s with seqs := s.seqs ++ [some []] } hnew
    have h3 : Spec.step s (.copyConstruct src) = some (.void, s2) := by
      simp [Spec.step, hs, h2]
    obtain ⟨w', hw', r'⟩ := step_refines r _ h3
    obtain ⟨p1, p2, p3, p4⟩ := pushAll_spec _ hnew h2
    refine ⟨w', List.range' s.fresh xs.length, hw', ?_, ?_, by simp, notin _⟩
    · have : seq s2 src = some xs := seq_some.2 (by
        rw [p1, List.getElem?_set_ne (by omega)]
        show (s.seqs ++ [some []])[src]? = _
        rw [List.getElem?_append_left hlt]; exact seq_some.1 hs)
      rw [forward_ok r' this]
      congr 1
      apply List.map_congr_left
      intro x hx
      rw [p3 x (hb x hx)]
    · have : seq s2 s.seqs.length = some (List.range' s.fresh xs.length) := seq_some.2 (by
        rw [p1]; simp)
      rw [forward_ok r' this, zipmap]
      have : (List.range' s.fresh xs.length).map s2.val = xs.map s.val := by simpa using p2
      rw [this]
  · intro d ds hd hne
    have hd' := seq_some.1 hd
    have hnew : (setSeq s d (some [])).seqs[d]? = some (some []) := seqs_set hd'
    obtain ⟨s2, h2⟩ := exPush _ _ hnew (xs.map s.val) [] (setSeq s d (some [])) hnew
    have h3 : Spec.step s (.assign d src) = some (.void, s2) := by
      simp [Spec.step, hs, hd, h2, hne]
    obtain ⟨w', hw', r'⟩ := step_refines r _ h3
    obtain ⟨p1, p2, p3, p4⟩ := pushAll_spec _ hnew h2
    have hltd : d < s.seqs.length := (List.getElem?_eq_some_iff.1 hd').1
    refine ⟨w', List.range' s.fresh xs.length, hw', ?_, ?_, by simp, notin _⟩
    · have : seq s2 src = some xs := seq_some.2 (by
        rw [p1, List.getElem?_set_ne hne]
        show (s.seqs.set d _)[src]? = _
        rw [List.getElem?_set_ne hne]; exact seq_some.1 hs)
      rw [forward_ok r' this]
      congr 1
      apply List.map_congr_left
      intro x hx
      rw [p3 x (hb x hx)]; rfl
    · have : seq s2 d = some (List.range' s.fresh xs.length) := seq_some.2 (by
        rw [p1]; simp [setSeq, hltd])
      rw [forward_ok r' this, zipmap]
      have : (List.range' s.fresh xs.length).map s2.val = xs.map s.val := by
        have := p2
        simpa [setSeq] using this
      rw [this]

/-- Lists and nodes a call is about. -/
def Touches (op : Op α) (l : Nat) (xs : List Nat) : Prop :=
  match op with
  | .assign d _ => d = l
  | .destroy m | .insertBeforeV m _ _ | .insertBeforeN m _ _ | .insertAfterV m _ _ | .insertAfterN m _ _ | .pop m | .shift m
  | .detach m _ | .remove m _ | .empty m => m = l
  | .detachAllAndAppend d t => d = l ∨ t = l
  | .setValue x _ => x ∈ xs
  | _ => False

/-- **C16**, independence.  A call that does not name list `l` as the one to change (and does not assign to the value of
one of its nodes) leaves list `l` as it was — in particular changing a copy leaves the source alone and vice versa. -/
theorem lists_independent (dflt : α) (ops : List (Op α)) (rs : List Ret) (s : S α)
    (h : Spec.run (S.empty dflt) ops = some (rs, s)) (op : Op α) (ret : Ret) (s' : S α)
    (h' : Spec.step s op = some (ret, s')) (l : Nat) (xs : List Nat) (hl : seq s l = some xs)
    (ht : ¬ Touches op l xs) :
    ∃ w w', run (W.empty dflt) ops = .ok (rs, w) ∧ step w op = .ok (ret, w') ∧ forward w' l = forward w l ∧
      backward w' l = backward w l := by
  obtain ⟨w, hw, r⟩ := run_refines ops (R.empty_world dflt) h
  obtain ⟨w', hw', r'⟩ := step_refines r op h'
  have hl' := seq_some.1 hl
  have hltl : l < s.seqs.length := (List.getElem?_eq_some_iff.1 hl').1
  obtain ⟨o, -, -, hc, -⟩ := r.obj hl'
  have hb : ∀ x ∈ xs, x < s.fresh := fun x hx => by
    have := r.bound (hc.live x hx); rw [r.fresh] at this; exact this
  -- values and sequence of `l` are the same
  have key : s'.seqs[l]? = some (some xs) ∧ ∀ x ∈ xs, s'.val x = s.val x := by
    have plc : ∀ {s0 : S α} {m x : Nat} {ins : List Nat → Option (List Nat)}, place s0 m x ins = some s' → m ≠ l →
        s'.seqs[l]? = s0.seqs[l]? ∧ s'.val = s0.val := by
      intro s0 m x ins hp hne
      obtain ⟨ys, -, hp⟩ := bind_some hp
      obtain ⟨zs, -, hp⟩ := bind_some hp
      cases hp
      exact ⟨by simp only [setSeq]; rw [List.getElem?_set_ne hne], rfl⟩
    have nodeIns : ∀ {m x : Nat} {ins : List Nat → Option (List Nat)}, insertNode s m x ins = some (ret, s') → m ≠ l →
        s'.seqs[l]? = some (some xs) ∧ ∀ x ∈ xs, s'.val x = s.val x := by
      intro m x ins hi hne
      unfold insertNode at hi
      split at hi
      · obtain ⟨s1, h1, hi⟩ := bind_some hi
        cases hi
        obtain ⟨e1, e2⟩ := plc h1 hne
        exact ⟨by rw [e1]; exact hl', fun _ _ => by rw [e2]⟩
      · obtain ⟨q, -, hi⟩ := bind_some hi
        split at hi
        · cases hi; exact ⟨hl', fun _ _ => rfl⟩
        · cases hi
    have valIns : ∀ {m : Nat} {v : α} {ins : List Nat → Option (List Nat)}, insertVal s m v ins = some (ret, s') → m ≠ l →
        s'.seqs[l]? = some (some xs) ∧ ∀ x ∈ xs, s'.val x = s.val x := by
      intro m v ins hi hne
      obtain ⟨s1, h1, hi⟩ := bind_some hi
      cases hi
      obtain ⟨e1, e2⟩ := plc h1 hne
      refine ⟨by rw [e1]; exact hl', fun x hx => ?_⟩
      rw [e2]
      exact upd_other _ _ (by have := hb x hx; omega)
    cases op with
    | construct =>
      cases h'
      refine ⟨?_, fun _ _ => rfl⟩
      show (s.seqs ++ [some []])[l]? = _
      rw [List.getElem?_append_left hltl]; exact hl'
    | constructV v =>
      simp only [Spec.step] at h'
      obtain ⟨s1, h1, h'⟩ := bind_some h'
      cases h'
      obtain ⟨p1, -, p3, -⟩ := pushAll_spec _ (construct_seq s) h1
      refine ⟨?_, fun x hx => p3 x (hb x hx)⟩
      rw [p1, List.getElem?_set_ne (by omega)]
      show (s.seqs ++ [some []])[l]? = _
      rw [List.getElem?_append_left hltl]; exact hl'
    | copyConstruct src =>
      simp only [Spec.step] at h'
      obtain ⟨q, -, h'⟩ := bind_some h'
      obtain ⟨s1, h1, h'⟩ := bind_some h'
      cases h'
      obtain ⟨p1, -, p3, -⟩ := pushAll_spec _ (construct_seq s) h1
      refine ⟨?_, fun x hx => p3 x (hb x hx)⟩
      rw [p1, List.getElem?_set_ne (by omega)]
      show (s.seqs ++ [some []])[l]? = _
      rw [List.getElem?_append_left hltl]; exact hl'
    | assign d src =>
      have hne : d ≠ l := ht
      simp only [Spec.step] at h'
      obtain ⟨ds, hd, h'⟩ := bind_some h'
      obtain ⟨q, -, h'⟩ := bind_some h'
      split at h'
      · cases h'; exact ⟨hl', fun _ _ => rfl⟩
      · obtain ⟨s1, h1, h'⟩ := bind_some h'
        cases h'
        obtain ⟨p1, -, p3, -⟩ := pushAll_spec _ (seqs_set (seq_some.1 hd)) h1
        refine ⟨?_, fun x hx => p3 x (hb x hx)⟩
        rw [p1, List.getElem?_set_ne hne]
        show (s.seqs.set d _)[l]? = _
        rw [List.getElem?_set_ne hne]; exact hl'
    | destroy m =>
      have hne : m ≠ l := ht
      simp only [Spec.step] at h'
      obtain ⟨q, -, h'⟩ := bind_some h'
      cases h'
      exact ⟨by simp only [setSeq]; rw [List.getElem?_set_ne hne]; exact hl', fun _ _ => rfl⟩
    | createNode v =>
      cases h'
      exact ⟨hl', fun x hx => upd_other _ _ (by have := hb x hx; omega)⟩
    | deleteNode x =>
      simp only [Spec.step] at h'
      split at h'
      · cases h'; exact ⟨hl', fun _ _ => rfl⟩
      · cases h'
    | setValue x v =>
      simp only [Spec.step] at h'
      split at h'
      · cases h'
        exact ⟨hl', fun y hy => upd_other _ _ (fun e => ht (by subst e; exact hy))⟩
      · cases h'
    | insertBeforeV m n v => exact valIns h' ht
    | insertAfterV m n v => exact valIns h' ht
    | insertBeforeN m n x => exact nodeIns h' ht
    | insertAfterN m n x => exact nodeIns h' ht
    | pop m =>
      have hne : m ≠ l := ht
      simp only [Spec.step] at h'
      obtain ⟨q, -, h'⟩ := bind_some h'
      split at h'
      · cases h'; exact ⟨hl', fun _ _ => rfl⟩
      · cases h'
        exact ⟨by simp only [setSeq]; rw [List.getElem?_set_ne hne]; exact hl', fun _ _ => rfl⟩
    | shift m =>
      have hne : m ≠ l := ht
      simp only [Spec.step] at h'
      obtain ⟨q, -, h'⟩ := bind_some h'
      split at h'
      · cases h'; exact ⟨hl', fun _ _ => rfl⟩
      · cases h'
        exact ⟨by simp only [setSeq]; rw [List.getElem?_set_ne hne]; exact hl', fun _ _ => rfl⟩
    | detach m n =>
      have hne : m ≠ l := ht
      simp only [Spec.step] at h'
      obtain ⟨q, -, h'⟩ := bind_some h'
      cases n with
      | none => cases h'; exact ⟨hl', fun _ _ => rfl⟩
      | some x =>
        obtain ⟨s1, h1, h'⟩ := bind_some h'
        cases h'
        obtain ⟨q', -, h1⟩ := bind_some h1
        split at h1
        · cases h1
          exact ⟨by simp only [setSeq]; rw [List.getElem?_set_ne hne]; exact hl', fun _ _ => rfl⟩
        · cases h1
    | remove m n =>
      have hne : m ≠ l := ht
      simp only [Spec.step] at h'
      obtain ⟨q, -, h'⟩ := bind_some h'
      cases n with
      | none => cases h'; exact ⟨hl', fun _ _ => rfl⟩
      | some x =>
        obtain ⟨s1, h1, h'⟩ := bind_some h'
        cases h'
        obtain ⟨q', -, h1⟩ := bind_some h1
        split at h1
        · cases h1
          exact ⟨by simp only [setSeq]; rw [List.getElem?_set_ne hne]; exact hl', fun _ _ => rfl⟩
        · cases h1
    | empty m =>
      have hne : m ≠ l := ht
      simp only [Spec.step] at h'
      obtain ⟨q, -, h'⟩ := bind_some h'
      cases h'
      exact ⟨by simp only [setSeq]; rw [List.getElem?_set_ne hne]; exact hl', fun _ _ => rfl⟩
    | detachAllAndAppend d t =>
      have hne : d ≠ l := fun e => ht (Or.inl e)
      have hne' : t ≠ l := fun e => ht (Or.inr e)
      simp only [Spec.step] at h'
      obtain ⟨q, -, h'⟩ := bind_some h'
      obtain ⟨q', -, h'⟩ := bind_some h'
      split at h'
      · cases h'
      · cases h'
        refine ⟨?_, fun _ _ => rfl⟩
        simp only [setSeq]
        rw [List.getElem?_set_ne hne', List.getElem?_set_ne hne]; exact hl'
    | size m =>
      simp only [Spec.step] at h'
      obtain ⟨q, -, h'⟩ := bind_some h'
      cases h'
      exact ⟨hl', fun _ _ => rfl⟩
  have e1 : xs.map (fun x => (x, s'.val x)) = xs.map fun x => (x, s.val x) :=
    List.map_congr_left fun x hx => by rw [key.2 x hx]
  have e2 : xs.reverse.map (fun x => (x, s'.val x)) = xs.reverse.map fun x => (x, s.val x) :=
    List.map_congr_left fun x hx => by rw [key.2 x (by simpa using hx)]
  refine ⟨w, w', hw, hw', ?_, ?_⟩
  · rw [forward_ok r' (seq_some.2 key.1), forward_ok r hl, e1]
  · rw [backward_ok r' (seq_some.2 key.1), backward_ok r hl, e2]

/-- A copy is changed and its source is another list: the hypotheses hold. -/
example : ∃ rs s ret s', Spec.run (S.empty (0 : Nat)) [.constructV 1, .insertBeforeV 0 none 2, .copyConstruct 0] = some (rs, s) ∧
    Spec.step s (.remove 1 (some 2)) = some (ret, s') ∧ seq s 0 = some [0, 1] ∧
    ¬ Touches (.remove 1 (some 2) : Op Nat) 0 [0, 1] :=
  ⟨_, _, _, _, rfl, rfl, by decide, by simp [Touches]⟩

end Verif.DList
