import Verif.DList.Spec
import Mathlib.Data.List.Nodup
import Mathlib.Data.List.Perm.Subperm

/-! # The pointer structures represent the abstract sequences -/

namespace Verif.DList
open Verif.Links Spec

variable {α : Type}

/-- The memory `w` represents the abstract state `s`. -/
structure R (w : W α) (s : S α) : Prop where
  len : w.objs.length = s.seqs.length
  obj : ∀ {l : Nat} {xs : List Nat}, s.seqs[l]? = some (some xs) →
    ∃ o : Obj, w.objs[l]? = some o ∧ o.alive = true ∧ Chain w.lh o.ends xs ∧ o.num = xs.length
  disj : ∀ {i j : Nat} {xs ys : List Nat}, i ≠ j → s.seqs[i]? = some (some xs) → s.seqs[j]? = some (some ys) → ∀ x ∈ xs, x ∉ ys
  looseOk : ∀ {x : Nat}, x ∈ s.loose → w.lh.live x = true ∧ w.lh.pv x = none ∧ w.lh.nx x = none
  looseNd : s.loose.Nodup
  looseDisj : ∀ {l : Nat} {xs : List Nat}, s.seqs[l]? = some (some xs) → ∀ x ∈ xs, x ∉ s.loose
  own : ∀ {x : Nat}, w.lh.live x = true → x ∈ s.loose ∨ ∃ (l : Nat) (xs : List Nat), s.seqs[l]? = some (some xs) ∧ x ∈ xs
  fresh : w.fresh = s.fresh
  bound : ∀ {x : Nat}, w.lh.live x = true → x < w.fresh
  val : ∀ {x : Nat}, w.lh.live x = true → w.val x = s.val x

theorem seq_some {s : S α} {l : Nat} {xs : List Nat} : seq s l = some xs ↔ s.seqs[l]? = some (some xs) := by
  unfold seq
  cases s.seqs[l]? with
  | none => simp
  | some q => simp

theorem getElem?_set_cases {β : Type} {L : List β} {l i : Nat} {v q : β} (h : (L.set l v)[i]? = some q) :
    (i = l ∧ q = v) ∨ (i ≠ l ∧ L[i]? = some q) := by
  rw [List.getElem?_set] at h
  split at h
  · split at h
    · exact Or.inl ⟨by omega, by simpa using h.symm⟩
    · cases h
  · exact Or.inr ⟨by omega, h⟩

theorem getObj_ok {w : W α} {s : S α} (r : R w s) {l : Nat} {xs : List Nat} (hl : s.seqs[l]? = some (some xs)) :
    ∃ o, getObj w l = .ok o ∧ w.objs[l]? = some o ∧ o.alive = true ∧ Chain w.lh o.ends xs ∧ o.num = xs.length := by
  obtain ⟨o, h1, h2, h3, h4⟩ := r.obj hl
  exact ⟨o, by simp [getObj, h1, h2], h1, h2, h3, h4⟩

/-- One list, the loose nodes and the links of their nodes change; everything else stays. -/
theorem R.update {w : W α} {s : S α} (r : R w s) {l : Nat} {xs : List Nat} (hl : s.seqs[l]? = some (some xs))
    {h' : LH} {o' : Obj} {xs' loose' : List Nat} (ha : o'.alive = true) (hc : Chain h' o'.ends xs')
    (hn : o'.num = xs'.length)
    (hf : ∀ y, y ∉ xs → y ∉ s.loose → h'.live y = w.lh.live y ∧ h'.pv y = w.lh.pv y ∧ h'.nx y = w.lh.nx y)
    (hsub : ∀ y ∈ xs', y ∈ xs ∨ y ∈ s.loose) (hsub2 : ∀ y ∈ loose', y ∈ xs ∨ y ∈ s.loose)
    (hd : ∀ y ∈ xs', y ∉ loose') (hlo : ∀ y ∈ loose', h'.live y = true ∧ h'.pv y = none ∧ h'.nx y = none)
    (hnd : loose'.Nodup) (hown : ∀ y, h'.live y = true → y ∈ xs ∨ y ∈ s.loose → y ∈ xs' ∨ y ∈ loose') :
    R (setObj { w with lh := h' } l o') { setSeq s l (some xs') with loose := loose' } := by
  obtain ⟨o, ho, -, hc0, -⟩ := r.obj hl
  have hlt : l < s.seqs.length := (List.getElem?_eq_some_iff.1 hl).1
  have hlt' : l < w.objs.length := by rw [r.len]; exact hlt
  have hlive : ∀ y, h'.live y = true → w.lh.live y = true := by
    intro y hy
    by_cases h1 : y ∈ xs
    · exact hc0.live y h1
    · by_cases h2 : y ∈ s.loose
      · exact (r.looseOk h2).1
      · rw [← (hf y h1 h2).1]; exact hy
  refine ⟨?_, ?_, ?_, ?_, hnd, ?_, ?_, r.fresh, fun h => r.bound (hlive _ h), fun h => r.val (hlive _ h)⟩
  · simp [setObj, setSeq, r.len]
  · intro i q hi
    rcases getElem?_set_cases hi with ⟨rfl, hq⟩ | ⟨hne, hi'⟩
    · cases hq
      exact ⟨o', by simp [setObj, hlt'], ha, hc, hn⟩
    · obtain ⟨p, h1, h2, h3, h4⟩ := r.obj hi'
      refine ⟨p, ?_, h2, ?_, h4⟩
      · simp only [setObj]
        rw [List.getElem?_set_ne (Ne.symm hne)]
        exact h1
      · refine ⟨seg_congr (fun y hy => ?_) h3.seg, h3.first, h3.last, fun y hy => ?_, h3.nodup⟩
        · have := hf y (r.disj hne hi' hl y hy) (r.looseDisj hi' y hy)
          exact this.2
        · have := hf y (r.disj hne hi' hl y hy) (r.looseDisj hi' y hy)
          simp only [setObj]
          rw [this.1]; exact h3.live y hy
  · intro i j as bs hij hi hj x hx hx'
    rcases getElem?_set_cases hi with ⟨rfl, hq⟩ | ⟨hne, hi'⟩
    · rcases getElem?_set_cases hj with ⟨rfl, hq'⟩ | ⟨hne', hj'⟩
      · exact hij rfl
      · cases hq
        rcases hsub x hx with h | h
        · exact r.disj hij hl hj' x h hx'
        · exact r.looseDisj hj' x hx' h
    · rcases getElem?_set_cases hj with ⟨rfl, hq'⟩ | ⟨hne', hj'⟩
      · cases hq'
        rcases hsub x hx' with h | h
        · exact r.disj hij hi' hl x hx h
        · exact r.looseDisj hi' x hx h
      · exact r.disj hij hi' hj' x hx hx'
  · intro x hx; exact hlo x hx
  · intro i q hi x hx hx'
    rcases getElem?_set_cases hi with ⟨rfl, hq⟩ | ⟨hne, hi'⟩
    · cases hq; exact hd x hx hx'
    · rcases hsub2 x hx' with h | h
      · exact r.disj hne hi' hl x hx h
      · exact r.looseDisj hi' x hx h
  · intro x hx
    have back : (x ∈ xs ∨ x ∈ s.loose) → x ∈ loose' ∨ ∃ (i : Nat) (q : List Nat), (s.seqs.set l (some xs'))[i]? = some (some q) ∧ x ∈ q := by
      intro h
      rcases hown x hx h with h | h
      · exact Or.inr ⟨l, xs', by simp [hlt], h⟩
      · exact Or.inl h
    rcases r.own (hlive x hx) with h | ⟨i, q, hi, hq⟩
    · exact back (Or.inr h)
    · by_cases hil : i = l
      · subst hil
        rw [hl] at hi
        cases hi
        exact back (Or.inl hq)
      · refine Or.inr ⟨i, q, ?_, hq⟩
        show (s.seqs.set l (some xs'))[i]? = _
        rw [List.getElem?_set_ne (Ne.symm hil)]
        exact hi

/-- `new` gives a loose node. -/
theorem R.create {w : W α} {s : S α} (r : R w s) (v : α) :
    R (createNode w v).2 (create s v) ∧ (createNode w v).1 = s.fresh := by
  have hb : ∀ {x : Nat}, w.lh.live x = true → x ≠ w.fresh := fun h e => by have := r.bound h; omega
  have hsl : ∀ {l : Nat} {xs : List Nat}, s.seqs[l]? = some (some xs) → ∀ x ∈ xs, x ≠ w.fresh := by
    intro l xs hl x hx
    obtain ⟨o, -, -, hc, -⟩ := r.obj hl
    exact hb (hc.live x hx)
  refine ⟨⟨r.len, ?_, r.disj, ?_, ?_, ?_, ?_, ?_, ?_, ?_⟩, r.fresh⟩
  · intro l xs hl
    obtain ⟨o, h1, h2, h3, h4⟩ := r.obj hl
    refine ⟨o, h1, h2, ⟨seg_congr (fun y hy => ?_) h3.seg, h3.first, h3.last, fun y hy => ?_, h3.nodup⟩, h4⟩
    · exact ⟨upd_other _ _ (hsl hl y hy), upd_other _ _ (hsl hl y hy)⟩
    · show upd w.lh.live w.fresh true y = true
      rw [upd_other _ _ (hsl hl y hy)]; exact h3.live y hy
  · intro x hx
    rcases List.mem_cons.1 hx with rfl | hx
    · simp [createNode, r.fresh]
    · have h := r.looseOk hx
      have hne := hb h.1
      exact ⟨by show upd w.lh.live w.fresh true x = true; rw [upd_other _ _ hne]; exact h.1,
        by show upd w.lh.pv w.fresh none x = none; rw [upd_other _ _ hne]; exact h.2.1,
        by show upd w.lh.nx w.fresh none x = none; rw [upd_other _ _ hne]; exact h.2.2⟩
  · refine List.nodup_cons.2 ⟨fun h => hb (r.looseOk h).1 r.fresh.symm, r.looseNd⟩
  · intro l xs hl x hx hx'
    rcases List.mem_cons.1 hx' with rfl | hx'
    · exact hsl hl _ hx r.fresh.symm
    · exact r.looseDisj hl x hx hx'
  · intro x hx
    by_cases hne : x = w.fresh
    · exact Or.inl (by simp [Spec.create, hne, r.fresh])
    · have : upd w.lh.live w.fresh true x = true := hx
      rw [upd_other _ _ hne] at this
      rcases r.own this with h | h
      · exact Or.inl (by simp [Spec.create, h])
      · exact Or.inr h
  · show w.fresh + 1 = s.fresh + 1
    rw [r.fresh]
  · intro x hx
    show x < w.fresh + 1
    by_cases hne : x = w.fresh
    · omega
    · have : upd w.lh.live w.fresh true x = true := hx
      rw [upd_other _ _ hne] at this
      have := r.bound this; omega
  · intro x hx
    show upd w.val w.fresh v x = upd s.val s.fresh v x
    rw [← r.fresh]
    by_cases hne : x = w.fresh
    · simp [hne]
    · rw [upd_other _ _ hne, upd_other _ _ hne]
      have : upd w.lh.live w.fresh true x = true := hx
      rw [upd_other _ _ hne] at this
      exact r.val this

/-! ## Insertion -/

theorem before_eq {x b : Nat} : ∀ {xs : List Nat}, b ∈ xs → ∃ as bs, xs = as ++ b :: bs ∧ before x b xs = as ++ x :: b :: bs
  | y :: ys, h => by
    by_cases e : y = b
    · subst e; exact ⟨[], ys, rfl, by simp [before]⟩
    · have hb : b ∈ ys := by
        rcases List.mem_cons.1 h with h | h
        · exact absurd h.symm e
        · exact h
      obtain ⟨as, bs, h1, h2⟩ := before_eq (x := x) hb
      exact ⟨y :: as, bs, by simp [h1], by simp [before, e, h2]⟩

theorem after_eq {x b : Nat} : ∀ {xs : List Nat}, b ∈ xs → ∃ as bs, xs = as ++ b :: bs ∧ after x b xs = as ++ b :: x :: bs
  | y :: ys, h => by
    by_cases e : y = b
    · subst e; exact ⟨[], ys, rfl, by simp [after]⟩
    · have hb : b ∈ ys := by
        rcases List.mem_cons.1 h with h | h
        · exact absurd h.symm e
        · exact h
      obtain ⟨as, bs, h1, h2⟩ := after_eq (x := x) hb
      exact ⟨y :: as, bs, by simp [h1], by simp [after, e, h2]⟩

/-- What a successful link of node `x` into `xs` gives. -/
structure Linked (h : LH) (xs : List Nat) (x : Nat) (ys : List Nat) (r : CRes (LH × Ends)) : Prop where
  ok : ∃ h' e', r = .ok (h', e') ∧ Chain h' e' ys ∧ Frame h h' ys
  mem : ∀ y, y ∈ ys ↔ y = x ∨ y ∈ xs
  len : ys.length = xs.length + 1

theorem linkBefore_spec {h : LH} {e : Ends} {xs ys : List Nat} {x : Nat} {n : Option Nat} (c : Chain h e xs)
    (hx : x ∉ xs) (hl : h.live x = true) (hn : h.nx x = none) (hs : insBefore xs x n = some ys) :
    Linked h xs x ys (linkBefore h e n x) := by
  cases n with
  | none =>
    cases hs
    exact ⟨linkBefore_end c hx hl hn, fun y => by simp; tauto, by simp⟩
  | some b =>
    simp only [insBefore] at hs
    split at hs
    next hb =>
      cases hs
      obtain ⟨as, bs, h1, h2⟩ := before_eq (x := x) hb
      rw [h2]
      subst h1
      exact ⟨linkBefore_mid c hx hl, fun y => by simp; tauto, by simp; omega⟩
    next => cases hs

theorem linkAfter_spec {h : LH} {e : Ends} {xs ys : List Nat} {x : Nat} {n : Option Nat} (c : Chain h e xs)
    (hx : x ∉ xs) (hl : h.live x = true) (hp : h.pv x = none) (hs : insAfter xs x n = some ys) :
    Linked h xs x ys (linkAfter h e n x) := by
  cases n with
  | none =>
    cases hs
    exact ⟨linkAfter_front c hx hl hp, fun y => by simp, by simp⟩
  | some b =>
    simp only [insAfter] at hs
    split at hs
    next hb =>
      cases hs
      obtain ⟨as, bs, h1, h2⟩ := after_eq (x := x) hb
      rw [h2]
      subst h1
      exact ⟨linkAfter_mid c hx hl, fun y => by simp; tauto, by simp; omega⟩
    next => cases hs

/-- Attaching a loose node. -/
theorem R.place {w : W α} {s : S α} (r : R w s) {l x : Nat} {xs ys : List Nat} (hl : s.seqs[l]? = some (some xs))
    (hx : x ∈ s.loose) {o : Obj} (ha : o.alive = true) (hnum : o.num = xs.length) {res : CRes (LH × Ends)}
    (k : Linked w.lh xs x ys res) :
    ∃ w', attach w l o res = .ok w' ∧ R w' { setSeq s l (some ys) with loose := s.loose.erase x } := by
  obtain ⟨h', e', hr, hc, hf⟩ := k.ok
  refine ⟨_, by simp only [attach, hr, ok_bind]; rfl, ?_⟩
  refine r.update hl (o' := { o with ends := e', num := o.num + 1 }) ha hc (by simp [hnum, k.len]) ?_ ?_ ?_ ?_ ?_ ?_ ?_
  · intro y h1 h2
    have hy : y ∉ ys := fun h => by
      rcases (k.mem y).1 h with h | h
      · exact h2 (h ▸ hx)
      · exact h1 h
    exact ⟨by rw [hf.live], hf.pv y hy, hf.nx y hy⟩
  · intro y hy
    rcases (k.mem y).1 hy with h | h
    · exact Or.inr (h ▸ hx)
    · exact Or.inl h
  · intro y hy; exact Or.inr (List.mem_of_mem_erase hy)
  · intro y hy hy'
    rcases (k.mem y).1 hy with h | h
    · subst h
      exact (List.Nodup.not_mem_erase r.looseNd) hy'
    · exact r.looseDisj hl y h (List.mem_of_mem_erase hy')
  · intro y hy
    have hyl := List.mem_of_mem_erase hy
    have hne : y ∉ ys := fun h => by
      rcases (k.mem y).1 h with h | h
      · subst h
        exact (List.Nodup.not_mem_erase r.looseNd) hy
      · exact r.looseDisj hl y h hyl
    have := r.looseOk hyl
    rw [hf.live, hf.pv y hne, hf.nx y hne]
    exact this
  · exact r.looseNd.erase x
  · intro y _ h
    rcases h with h | h
    · exact Or.inl ((k.mem y).2 (Or.inr h))
    · by_cases e : y = x
      · exact Or.inl ((k.mem y).2 (Or.inl e))
      · exact Or.inr ((List.mem_erase_of_ne e).2 h)

/-! ## Removal -/

theorem erase_split {xs : List Nat} {x : Nat} (h : x ∈ xs) (hd : xs.Nodup) :
    ∃ as bs, xs = as ++ x :: bs ∧ xs.erase x = as ++ bs := by
  obtain ⟨as, bs, rfl⟩ := List.append_of_mem h
  refine ⟨as, bs, rfl, ?_⟩
  have hx : x ∉ as := by
    rw [List.nodup_append] at hd
    exact fun h => hd.2.2 x h x (by simp) rfl
  rw [List.erase_append_right _ hx]
  simp

/-- `Detach` of a member. -/
theorem R.detach {w : W α} {s : S α} (r : R w s) {l x : Nat} {xs : List Nat} (hl : s.seqs[l]? = some (some xs))
    (hx : x ∈ xs) :
    ∃ w', detach w l (some x) = .ok (true, w') ∧ w'.fresh = w.fresh ∧
      R w' { setSeq s l (some (xs.erase x)) with loose := x :: s.loose } := by
  obtain ⟨o, ho, -, ha, hc, hn⟩ := getObj_ok r hl
  obtain ⟨as, bs, h1, h2⟩ := erase_split hx hc.nodup
  rw [h2]
  subst h1
  obtain ⟨h', e', hu, hc', hf, hp', hn'⟩ := unlink_ok hc
  refine ⟨setObj { w with lh := h' } l { o with ends := e', num := dec o.num },
    by simp only [DList.detach, ho, ok_bind, hu], rfl, ?_⟩
  have hxl : x ∉ s.loose := r.looseDisj hl x hx
  have hd := List.nodup_append.1 hc.nodup
  have hxb := (List.nodup_cons.1 hd.2.1).1
  have hxa : x ∉ as := fun h => hd.2.2 x h x (by simp) rfl
  refine r.update hl (o' := { o with ends := e', num := dec o.num }) ha hc' ?_ ?_ ?_ ?_ ?_ ?_ ?_ ?_
  · simp only [dec, hn]
    rw [if_neg (by simp)]
    simp
  · intro y h1 _; exact ⟨by rw [hf.live], hf.pv y h1, hf.nx y h1⟩
  · intro y hy
    left
    simp only [List.mem_append, List.mem_cons] at hy ⊢
    tauto
  · intro y hy
    rcases List.mem_cons.1 hy with rfl | hy
    · left; simp
    · exact Or.inr hy
  · intro y hy hy'
    rcases List.mem_cons.1 hy' with rfl | hy'
    · simp only [List.mem_append] at hy
      tauto
    · refine r.looseDisj hl y ?_ hy'
      simp only [List.mem_append, List.mem_cons] at hy ⊢
      tauto
  · intro y hy
    rcases List.mem_cons.1 hy with rfl | hy
    · exact ⟨by rw [hf.live]; exact hc.live y hx, hp', hn'⟩
    · have hne : y ∉ as ++ x :: bs := fun h => r.looseDisj hl y h hy
      rw [hf.live, hf.pv y hne, hf.nx y hne]
      exact r.looseOk hy
  · exact List.nodup_cons.2 ⟨hxl, r.looseNd⟩
  · intro y _ h
    simp only [List.mem_append, List.mem_cons] at h ⊢
    tauto

/-- `delete` of a loose node. -/
theorem R.delete {w : W α} {s : S α} (r : R w s) {x : Nat} (hx : x ∈ s.loose) :
    ∃ w', deleteNode w x = .ok w' ∧ w'.fresh = w.fresh ∧ R w' { s with loose := s.loose.erase x } := by
  have hl := r.looseOk hx
  refine ⟨{ w with lh := { w.lh with live := upd w.lh.live x false } }, by simp [deleteNode, hl.1], rfl, ?_⟩
  have hlive : ∀ y, upd w.lh.live x false y = true → y ≠ x ∧ w.lh.live y = true := by
    intro y hy
    by_cases e : y = x
    · subst e; simp at hy
    · rw [upd_other _ _ e] at hy; exact ⟨e, hy⟩
  refine ⟨r.len, ?_, r.disj, ?_, r.looseNd.erase x, ?_, ?_, r.fresh, fun h => r.bound (hlive _ h).2,
    fun h => r.val (hlive _ h).2⟩
  · intro l xs h
    obtain ⟨o, h1, h2, h3, h4⟩ := r.obj h
    refine ⟨o, h1, h2, ⟨h3.seg, h3.first, h3.last, fun y hy => ?_, h3.nodup⟩, h4⟩
    show upd w.lh.live x false y = true
    rw [upd_other _ _ (fun e : y = x => r.looseDisj h y hy (e ▸ hx))]
    exact h3.live y hy
  · intro y hy
    have hne : y ≠ x := fun e => List.Nodup.not_mem_erase r.looseNd (e ▸ hy)
    have := r.looseOk (List.mem_of_mem_erase hy)
    refine ⟨?_, this.2⟩
    show upd w.lh.live x false y = true
    rw [upd_other _ _ hne]; exact this.1
  · intro l xs h y hy hy'
    exact r.looseDisj h y hy (List.mem_of_mem_erase hy')
  · intro y hy
    obtain ⟨hne, hy⟩ := hlive y hy
    rcases r.own hy with h | h
    · exact Or.inl ((List.mem_erase_of_ne hne).2 h)
    · exact Or.inr h

/-- `Remove` of a member. -/
theorem R.remove {w : W α} {s : S α} (r : R w s) {l x : Nat} {xs : List Nat} (hl : s.seqs[l]? = some (some xs))
    (hx : x ∈ xs) :
    ∃ w', remove w l (some x) = .ok (true, w') ∧ w'.fresh = w.fresh ∧ R w' (setSeq s l (some (xs.erase x))) := by
  obtain ⟨w1, h1, f1, r1⟩ := r.detach hl hx
  obtain ⟨w2, h2, f2, r2⟩ := r1.delete (x := x) (by simp)
  refine ⟨w2, by simp [DList.remove, h1, h2], by rw [f2, f1], ?_⟩
  simpa [setSeq] using r2

/-- A node list without repetition fits in the addresses handed out. -/
theorem R.length_le {w : W α} {s : S α} (r : R w s) {l : Nat} {xs : List Nat} (hl : s.seqs[l]? = some (some xs)) :
    xs.length ≤ w.fresh := by
  obtain ⟨o, -, -, hc, -⟩ := r.obj hl
  have : xs ⊆ List.range w.fresh := fun x hx => List.mem_range.2 (r.bound (hc.live x hx))
  have := (List.subperm_of_subset hc.nodup this).length_le
  simpa using this

theorem seqs_set {s : S α} {l : Nat} {xs ys : List Nat} (h : s.seqs[l]? = some (some xs)) :
    (setSeq s l (some ys)).seqs[l]? = some (some ys) := by
  have : l < s.seqs.length := (List.getElem?_eq_some_iff.1 h).1
  simp [setSeq, this]

theorem setSeq_setSeq (s : S α) (l : Nat) (a b : Option (List Nat)) : setSeq (setSeq s l a) l b = setSeq s l b := by
  simp [setSeq]

theorem setSeq_self {s : S α} {l : Nat} {xs : List Nat} (h : s.seqs[l]? = some (some xs)) : setSeq s l (some xs) = s := by
  have hlt : l < s.seqs.length := (List.getElem?_eq_some_iff.1 h).1
  have : s.seqs[l] = some xs := by
    have := List.getElem?_eq_getElem hlt
    rw [h] at this
    exact (Option.some.inj this).symm
  have e : s.seqs.set l (some xs) = s.seqs := by
    rw [← this]; exact List.set_getElem_self hlt
  simp [setSeq, e]

theorem emptyLoop_ok : ∀ (xs : List Nat) (k : Nat) {w : W α} {s : S α} (_ : R w s) {l : Nat}
    (_ : s.seqs[l]? = some (some xs)) (_ : xs.length < k),
    ∃ w', emptyLoop k w l = .ok w' ∧ w'.fresh = w.fresh ∧ R w' (setSeq s l (some []))
  | [], k + 1, w, s, r, l, hl, _ => by
    obtain ⟨o, ho, -, ha, hc, hn⟩ := getObj_ok r hl
    refine ⟨w, ?_, rfl, by rw [setSeq_self hl]; exact r⟩
    have : o.ends.first = none := hc.first
    simp [emptyLoop, ho, this]
  | x :: xs, k + 1, w, s, r, l, hl, hk => by
    obtain ⟨o, ho, -, ha, hc, hn⟩ := getObj_ok r hl
    have hf : o.ends.first = some x := hc.first
    obtain ⟨w1, h1, f1, r1⟩ := r.remove hl (x := x) (by simp)
    have e : (x :: xs).erase x = xs := by simp
    rw [e] at r1
    obtain ⟨w2, h2, f2, r2⟩ := emptyLoop_ok xs k r1 (seqs_set hl) (by simp only [List.length_cons] at hk; omega)
    refine ⟨w2, ?_, by rw [f2, f1], by rw [setSeq_setSeq] at r2; exact r2⟩
    simp [emptyLoop, ho, hf, h1, h2]

theorem R.empty {w : W α} {s : S α} (r : R w s) {l : Nat} {xs : List Nat} (hl : s.seqs[l]? = some (some xs)) :
    ∃ w', empty w l = .ok w' ∧ w'.fresh = w.fresh ∧ R w' (setSeq s l (some [])) := by
  obtain ⟨w1, h1, f1, r1⟩ := emptyLoop_ok xs (w.fresh + 1) r hl (by have := r.length_le hl; omega)
  obtain ⟨o, ho, ho', ha, hc, hn⟩ := getObj_ok r1 (seqs_set hl)
  have e : setObj w1 l { o with num := 0 } = w1 := by
    have h0 : ({ o with num := 0 } : Obj) = o := by cases o; simp only at hn ⊢; rw [hn]; rfl
    rw [h0]
    have hlt : l < w1.objs.length := (List.getElem?_eq_some_iff.1 ho').1
    have : w1.objs[l] = o := by
      have := List.getElem?_eq_getElem hlt
      rw [ho'] at this
      exact (Option.some.inj this).symm
    have e : w1.objs.set l o = w1.objs := by
      rw [← this]; exact List.set_getElem_self hlt
    simp [setObj, e]
  refine ⟨w1, ?_, f1, r1⟩
  simp [DList.empty, h1, ho, e]

/-- Destroying an empty list. -/
theorem R.kill {w : W α} {s : S α} (r : R w s) {l : Nat} (hl : s.seqs[l]? = some (some [])) (o : Obj) :
    R (setObj w l o) (setSeq s l none) := by
  have hlt : l < s.seqs.length := (List.getElem?_eq_some_iff.1 hl).1
  have key : ∀ {i : Nat} {q : List Nat}, (s.seqs.set l none)[i]? = some (some q) → i ≠ l ∧ s.seqs[i]? = some (some q) := by
    intro i q h
    rcases getElem?_set_cases h with ⟨rfl, hq⟩ | h
    · cases hq
    · exact h
  refine ⟨by simp [setObj, setSeq, r.len], ?_, ?_, r.looseOk, r.looseNd, ?_, ?_, r.fresh, r.bound, r.val⟩
  · intro i q h
    obtain ⟨hne, h⟩ := key h
    obtain ⟨p, h1, h2, h3, h4⟩ := r.obj h
    refine ⟨p, ?_, h2, h3, h4⟩
    simp only [setObj]
    rw [List.getElem?_set_ne (Ne.symm hne)]; exact h1
  · intro i j xs ys hij hi hj
    exact r.disj hij (key hi).2 (key hj).2
  · intro i q h; exact r.looseDisj (key h).2
  · intro x hx
    rcases r.own hx with h | ⟨i, q, h, hq⟩
    · exact Or.inl h
    · have hne : i ≠ l := fun e => by subst e; rw [hl] at h; cases h; simp at hq
      refine Or.inr ⟨i, q, ?_, hq⟩
      show (s.seqs.set l none)[i]? = _
      rw [List.getElem?_set_ne (Ne.symm hne)]; exact h

/-- A new empty list. -/
theorem R.construct {w : W α} {s : S α} (r : R w s) :
    R (construct w) { s with seqs := s.seqs ++ [some []] } := by
  have key : ∀ {i : Nat} {q : List Nat}, (s.seqs ++ [some []])[i]? = some (some q) →
      s.seqs[i]? = some (some q) ∨ (i = s.seqs.length ∧ q = []) := by
    intro i q h
    rw [List.getElem?_append] at h
    split at h
    · exact Or.inl h
    · cases hi : i - s.seqs.length with
      | zero =>
        rw [hi] at h
        simp at h
        exact Or.inr ⟨by omega, h⟩
      | succ k => rw [hi] at h; simp at h
  refine ⟨by simp [DList.construct, r.len], ?_, ?_, r.looseOk, r.looseNd, ?_, ?_, r.fresh, r.bound, r.val⟩
  · intro i q h
    rcases key h with h | ⟨rfl, rfl⟩
    · obtain ⟨p, h1, h2, h3, h4⟩ := r.obj h
      refine ⟨p, ?_, h2, h3, h4⟩
      simp only [DList.construct]
      rw [List.getElem?_append_left (List.getElem?_eq_some_iff.1 h1).1]
      exact h1
    · refine ⟨{ alive := true, ends := ⟨none, none⟩, num := 0 }, ?_, rfl, ⟨trivial, rfl, rfl, by simp, by simp⟩, rfl⟩
      simp [DList.construct, ← r.len]
  · intro i j xs ys hij hi hj x hx hx'
    rcases key hi with hi | ⟨rfl, rfl⟩
    · rcases key hj with hj | ⟨rfl, rfl⟩
      · exact r.disj hij hi hj x hx hx'
      · simp at hx'
    · simp at hx
  · intro i q h x hx
    rcases key h with h | ⟨rfl, rfl⟩
    · exact r.looseDisj h x hx
    · simp at hx
  · intro x hx
    rcases r.own hx with h | ⟨i, q, h, hq⟩
    · exact Or.inl h
    · refine Or.inr ⟨i, q, ?_, hq⟩
      show (s.seqs ++ [some []])[i]? = _
      rw [List.getElem?_append_left (List.getElem?_eq_some_iff.1 h).1]; exact h

end Verif.DList
