import Verif.OrderedHash.Spec
import Mathlib.Data.List.Nodup
import Mathlib.Data.List.Perm.Subperm

/-! # Proof of the refinement of the ordered hash -/

namespace Verif.OrderedHash
open Verif.Links Spec

variable {α : Type}

/-- The bytes a key is hashed by. -/
def keyBytes : Key → List UInt8
  | .int i => intBytes i
  | .str bs => bs

/-- The key members of a node hold a key. -/
def KeyRep (ik : Int) (sk : Option (List UInt8)) : Key → Prop
  | .int i => sk = none ∧ ik = i
  | .str bs => ∃ buf, sk = some buf ∧ ik = (bs.length : Int) ∧ bs.length ≤ buf.length ∧ buf.take bs.length = bs

/-- The buckets of the table hold exactly the nodes `xs`, each in the bucket of its hash. -/
def Buckets (hp hn : Nat → Option Nat) (hk : Nat → Nat) (tbl : List (Option Nat)) (xs : List Nat) : Prop :=
  ∃ B : Nat → List Nat, ∀ b, b < tbl.length →
    tbl[b]? = some (B b).head? ∧ Seg hp hn none (B b) none ∧ (B b).Nodup ∧
      ∀ x, x ∈ B b ↔ x ∈ xs ∧ hk x % tbl.length = b

/-- The world represents the abstract state. -/
structure R (hf : List UInt8 → Nat) (w : W α) (s : S α) : Prop where
  chain : Chain w.lh w.ends s.seq
  num : w.num = s.seq.length
  pos : 0 < w.tbl.length
  bkt : Buckets w.hp w.hn w.hk w.tbl s.seq
  keyOk : ∀ {x : Nat}, w.lh.live x = true → KeyRep (w.ik x) (w.sk x) (s.key x)
  hkSeq : ∀ {x : Nat}, x ∈ s.seq → w.hk x = hf (keyBytes (s.key x))
  hkLoose : ∀ {x : Nat}, x ∈ s.loose → w.hk x = 0 ∨ w.hk x = hf (keyBytes (s.key x))
  uniq : ∀ {x y : Nat}, x ∈ s.seq → y ∈ s.seq → s.key x = s.key y → x = y
  looseOk : ∀ {x : Nat}, x ∈ s.loose → w.lh.live x = true ∧ (s.stale x = false → w.lh.pv x = none) ∧
    (s.stale x = false → w.lh.nx x = none) ∧ w.hp x = none ∧ w.hn x = none
  looseNd : s.loose.Nodup
  looseDisj : ∀ {x : Nat}, x ∈ s.seq → x ∉ s.loose
  own : ∀ {x : Nat}, w.lh.live x = true → x ∈ s.seq ∨ x ∈ s.loose
  fresh : w.fresh = s.fresh
  bound : ∀ {x : Nat}, w.lh.live x = true → x < w.fresh
  val : ∀ {x : Nat}, w.lh.live x = true → w.val x = s.val x

theorem Buckets.congr {hp hn hp' hn' : Nat → Option Nat} {hk hk' : Nat → Nat} {tbl : List (Option Nat)} {xs ys : List Nat}
    (h : Buckets hp hn hk tbl xs) (hs : ∀ x, x ∈ xs ↔ x ∈ ys)
    (hl : ∀ x ∈ xs, hp' x = hp x ∧ hn' x = hn x ∧ hk' x = hk x) : Buckets hp' hn' hk' tbl ys := by
  obtain ⟨B, h⟩ := h
  refine ⟨B, fun b hb => ?_⟩
  obtain ⟨h1, h2, h3, h4⟩ := h b hb
  have hm : ∀ x ∈ B b, x ∈ xs := fun x hx => ((h4 x).1 hx).1
  refine ⟨h1, seg_congr (fun x hx => ⟨(hl x (hm x hx)).1, (hl x (hm x hx)).2.1⟩) h2, h3, fun x => ?_⟩
  rw [h4 x]
  constructor
  · rintro ⟨ha, hb⟩
    exact ⟨(hs x).1 ha, by rw [(hl x ha).2.2]; exact hb⟩
  · rintro ⟨ha, hb⟩
    have ha := (hs x).2 ha
    exact ⟨ha, by rw [(hl x ha).2.2] at hb; exact hb⟩

theorem Buckets.empty (hp hn : Nat → Option Nat) (hk : Nat → Nat) (n : Nat) : Buckets hp hn hk (List.replicate n none) [] := by
  refine ⟨fun _ => [], fun b hb => ⟨?_, trivial, List.nodup_nil, by simp⟩⟩
  simp only [List.length_replicate] at hb
  simp [hb]

/-- The bucket a node is in, split at the node. -/
theorem Buckets.split {hp hn : Nat → Option Nat} {hk : Nat → Nat} {tbl : List (Option Nat)} {xs : List Nat}
    (h : Buckets hp hn hk tbl xs) (hpos : 0 < tbl.length) :
    ∃ B : Nat → List Nat, ∀ b, b < tbl.length →
    tbl[b]? = some (B b).head? ∧ Seg hp hn none (B b) none ∧ (B b).Nodup ∧
      ∀ x, x ∈ B b ↔ x ∈ xs ∧ hk x % tbl.length = b := h

theorem rd_some {β : Type} {m : List β} {i : Nat} {v : β} (h : m[i]? = some v) : rd m i = .ok v := by simp [rd, h]

theorem attachHash_ok {w : W α} {xs : List Nat} {x : Nat} (hb : Buckets w.hp w.hn w.hk w.tbl xs)
    (hl : ∀ y ∈ xs, w.lh.live y = true) (hlx : w.lh.live x = true) (hx : x ∉ xs) (hpx : w.hp x = none)
    (hpos : 0 < w.tbl.length) :
    ∃ hp' hn' t', attachHash w x = .ok { w with hp := hp', hn := hn', tbl := t' } ∧ t'.length = w.tbl.length ∧
      Buckets hp' hn' w.hk t' (x :: xs) ∧ (∀ y, y ≠ x → y ∉ xs → hp' y = w.hp y ∧ hn' y = w.hn y) := by
  obtain ⟨B, hb⟩ := hb
  have hlt : w.hk x % w.tbl.length < w.tbl.length := Nat.mod_lt _ hpos
  obtain ⟨h1, h2, h3, h4⟩ := hb _ hlt
  have hBx : ∀ b, b < w.tbl.length → ∀ y ∈ B b, y ∈ xs := fun b hbl y hy => (((hb b hbl).2.2.2 y).1 hy).1
  have hxB : ∀ b, b < w.tbl.length → x ∉ B b := fun b hbl h => hx (hBx b hbl x h)
  refine ⟨updHead w.hp (B (w.hk x % w.tbl.length)) (some x), upd w.hn x (B (w.hk x % w.tbl.length)).head?,
    w.tbl.set (w.hk x % w.tbl.length) (some x), ?_, by simp, ?_, ?_⟩
  · unfold attachHash
    simp only [getHk, hlx, if_true, ok_bind, slot, if_neg (Nat.ne_of_gt hpos), rd_some h1, setHn]
    cases hB : (B (w.hk x % w.tbl.length)).head? with
    | none => simp [setHpOpt, wr, hlt, updHead, hB]
    | some y =>
      have hly : w.lh.live y = true := hl y (hBx _ hlt y (List.mem_of_head? hB))
      simp [setHpOpt, setHp, wr, hlt, updHead, hB, hly]
  · refine ⟨fun b => if b = w.hk x % w.tbl.length then x :: B b else B b, fun b hbl => ?_⟩
    simp only [List.length_set] at hbl ⊢
    by_cases e : b = w.hk x % w.tbl.length
    · subst e
      rw [if_pos rfl]
      refine ⟨by simp [hlt], ?_, List.nodup_cons.2 ⟨hxB _ hlt, h3⟩, fun y => ?_⟩
      · have := seg_insert (as := []) (bs := B (w.hk x % w.tbl.length)) (x := x) (n' := none) (pv := w.hp) (nx := w.hn)
          trivial h2 (by simpa using ⟨hxB _ hlt, h3⟩)
        simp only [List.getLast?_nil, List.nil_append] at this
        rw [upd_self hpx] at this
        exact this
      · simp only [List.mem_cons]
        constructor
        · rintro (rfl | hy)
          · exact ⟨Or.inl rfl, rfl⟩
          · have := (h4 y).1 hy
            exact ⟨Or.inr this.1, this.2⟩
        · rintro ⟨rfl | hy, hm⟩
          · exact Or.inl rfl
          · exact Or.inr ((h4 y).2 ⟨hy, hm⟩)
    · rw [if_neg e]
      obtain ⟨g1, g2, g3, g4⟩ := hb b hbl
      have hdis : ∀ y ∈ B b, y ∉ B (w.hk x % w.tbl.length) := by
        intro y hy hy'
        have a := ((g4 y).1 hy).2
        have c := ((h4 y).1 hy').2
        exact e (a.symm.trans c)
      refine ⟨by rw [List.getElem?_set_ne (Ne.symm e)]; exact g1, ?_, g3, fun y => ?_⟩
      · refine seg_congr (fun y hy => ⟨updHead_other (hdis y hy), upd_other _ _ ?_⟩) g2
        exact ne_of_mem hy (hxB b hbl)
      · rw [g4 y]
        simp only [List.mem_cons]
        constructor
        · rintro ⟨hy, hm⟩; exact ⟨Or.inr hy, hm⟩
        · rintro ⟨rfl | hy, hm⟩
          · exact absurd hm.symm e
          · exact ⟨hy, hm⟩
  · intro y hy hyx
    exact ⟨updHead_other (fun h => hyx (hBx _ hlt y h)), upd_other _ _ hy⟩

theorem unhash_ok {w : W α} {xs ys : List Nat} {x : Nat} (hb : Buckets w.hp w.hn w.hk w.tbl xs)
    (hl : ∀ y ∈ xs, w.lh.live y = true) (hx : x ∈ xs) (hpos : 0 < w.tbl.length) (hys : ∀ y, y ∈ ys ↔ y ∈ xs ∧ y ≠ x) :
    ∃ hp' hn' t', unhash w x = .ok { w with hp := hp', hn := hn', tbl := t' } ∧ t'.length = w.tbl.length ∧
      Buckets hp' hn' w.hk t' ys ∧ hp' x = none ∧ hn' x = none ∧ (∀ y, y ∉ xs → hp' y = w.hp y ∧ hn' y = w.hn y) := by
  obtain ⟨B, hb⟩ := hb
  have hlt : w.hk x % w.tbl.length < w.tbl.length := Nat.mod_lt _ hpos
  generalize hbx : w.hk x % w.tbl.length = b at hlt
  obtain ⟨h1, h2, h3, h4⟩ := hb b hlt
  have hxb : x ∈ B b := (h4 x).2 ⟨hx, hbx⟩
  obtain ⟨as, bs, hB⟩ := List.append_of_mem hxb
  rw [hB] at h1 h2 h3 h4
  have hlx := hl x hx
  have hnd := List.nodup_append.1 h3
  have hxas : x ∉ as := fun h => hnd.2.2 x h x (by simp) rfl
  have hxbs : x ∉ bs := (List.nodup_cons.1 hnd.2.1).1
  have hls : ∀ y ∈ as ++ x :: bs, w.lh.live y = true := fun y hy => hl y ((h4 y).1 hy).1
  have hs := (seg_append _ _ _ _ _ _).1 h2
  have hpx : w.hp x = as.getLast? := by have := hs.2.1; simpa using this
  have hnx : w.hn x = bs.head? := by have := hs.2.2.1; simpa using this
  refine ⟨upd (updHead w.hp bs as.getLast?) x none, upd (updLast w.hn as bs.head?) x none,
    (if as = [] then w.tbl.set b bs.head? else w.tbl), ?_, ?_, ?_, by simp, by simp, ?_⟩
  · have hprev : unhashPrev w x b = .ok { w with hn := updLast w.hn as bs.head?, tbl := if as = [] then w.tbl.set b bs.head? else w.tbl } := by
      unfold unhashPrev
      simp only [getHp, getHn, hlx, if_true, ok_bind, hpx, hnx]
      rcases List.eq_nil_or_concat as with has | ⟨as', a, has⟩
      · subst has
        simp only [List.nil_append, List.head?_cons] at h1
        simp [rd_some h1, wr, hlt, updLast]
      · have : w.lh.live a = true := hls a (by simp [has])
        simp [has, setHn, this, updLast]
    have hnx' : updLast w.hn as bs.head? x = bs.head? := by rw [updLast_other hxas, hnx]
    unfold unhash
    simp only [getHk, hlx, if_true, ok_bind, slot, if_neg (Nat.ne_of_gt hpos), hbx, hprev, getHn, getHp, hnx', hpx]
    have hopt : setHpOpt { w with hn := updLast w.hn as bs.head?, tbl := if as = [] then w.tbl.set b bs.head? else w.tbl }
        bs.head? as.getLast? = .ok { w with
          hp := updHead w.hp bs as.getLast?, hn := updLast w.hn as bs.head?, tbl := if as = [] then w.tbl.set b bs.head? else w.tbl } := by
      unfold setHpOpt updHead
      cases hbs : bs.head? with
      | none => rfl
      | some c =>
        have : w.lh.live c = true := hls c (by simp [List.mem_of_head? hbs])
        simp [setHp, this]
    rw [hopt]
    simp only [ok_bind, setHp, hlx, if_true, setHn]
  · split <;> simp
  · refine ⟨fun c => if c = b then as ++ bs else B c, fun c hc => ?_⟩
    have hlen : (if as = [] then w.tbl.set b bs.head? else w.tbl).length = w.tbl.length := by split <;> simp
    rw [hlen] at hc ⊢
    by_cases e : c = b
    · subst e
      simp only [if_true]
      refine ⟨?_, seg_remove h2 h3, ?_, fun y => ?_⟩
      · by_cases has : as = []
        · simp [has, hlt]
        · rw [if_neg has, h1]
          cases as with
          | nil => exact absurd rfl has
          | cons a as => simp
      · exact List.nodup_append.2 ⟨hnd.1, (List.nodup_cons.1 hnd.2.1).2, fun a ha b hb => hnd.2.2 a ha b (by simp [hb])⟩
      · rw [hys y]
        constructor
        · intro hy
          have hy' : y ∈ as ++ x :: bs := by
            simp only [List.mem_append, List.mem_cons] at hy ⊢
            rcases hy with h | h <;> simp [h]
          have := (h4 y).1 hy'
          refine ⟨⟨this.1, ?_⟩, this.2⟩
          rintro rfl
          simp only [List.mem_append] at hy
          rcases hy with h | h
          · exact hxas h
          · exact hxbs h
        · rintro ⟨⟨hy, hne⟩, hm⟩
          have := (h4 y).2 ⟨hy, hm⟩
          simp only [List.mem_append, List.mem_cons] at this ⊢
          rcases this with h | h | h
          · exact Or.inl h
          · exact absurd h hne
          · exact Or.inr h
    · simp only [if_neg e]
      obtain ⟨g1, g2, g3, g4⟩ := hb c hc
      have hdis : ∀ y ∈ B c, y ∉ as ++ x :: bs := by
        intro y hy hy'
        have p := ((g4 y).1 hy).2
        have q := ((h4 y).1 hy').2
        exact e (p.symm.trans q)
      refine ⟨?_, ?_, g3, fun y => ?_⟩
      · split
        · rw [List.getElem?_set_ne (Ne.symm e)]; exact g1
        · exact g1
      · refine seg_congr (fun y hy => ?_) g2
        have hd := hdis y hy
        simp only [List.mem_append, List.mem_cons, not_or] at hd
        exact ⟨by rw [upd_other _ _ hd.2.1, updHead_other hd.2.2], by rw [upd_other _ _ hd.2.1, updLast_other hd.1]⟩
      · rw [g4 y, hys y]
        constructor
        · rintro ⟨hy, hm⟩
          refine ⟨⟨hy, ?_⟩, hm⟩
          rintro rfl
          exact e (hm.symm.trans hbx)
        · rintro ⟨⟨hy, _⟩, hm⟩; exact ⟨hy, hm⟩
  · intro y hy
    have hd : y ∉ as ++ x :: bs := fun h => hy ((h4 y).1 h).1
    simp only [List.mem_append, List.mem_cons, not_or] at hd
    exact ⟨by rw [upd_other _ _ hd.2.1, updHead_other hd.2.2], by rw [upd_other _ _ hd.2.1, updLast_other hd.1]⟩

/-! ## Finding -/

theorem findLoop_ok {w : W α} {m : Nat → CRes Bool} {p : Nat → Bool} : ∀ (bs : List Nat) (k : Nat) (q : Option Nat),
    Seg w.hp w.hn q bs none → (∀ x ∈ bs, w.lh.live x = true) → (∀ x ∈ bs, m x = .ok (p x)) → bs.length < k →
    findLoop w m k bs.head? = .ok (bs.find? p)
  | [], k + 1, q, _, _, _, _ => rfl
  | x :: bs, k + 1, q, hs, hl, hm, hk => by
    have hnx : w.hn x = bs.head? := by have := hs.2.1; simpa using this
    have ih := findLoop_ok bs k (some x) hs.2.2 (fun y hy => hl y (by simp [hy])) (fun y hy => hm y (by simp [hy]))
      (by simp only [List.length_cons] at hk; omega)
    simp only [List.head?_cons, findLoop, hm x (by simp), ok_bind, getHn, hl x (by simp), if_true, hnx, ih]
    cases hp : p x <;> simp [List.find?_cons, hp]

theorem R.seq_live {hf : List UInt8 → Nat} {w : W α} {s : S α} (r : R hf w s) {x : Nat} (hx : x ∈ s.seq) :
    w.lh.live x = true := r.chain.live x hx

theorem R.length_le {hf : List UInt8 → Nat} {w : W α} {s : S α} (r : R hf w s) {xs : List Nat} (hd : xs.Nodup)
    (hs : ∀ x ∈ xs, x ∈ s.seq) : xs.length ≤ w.fresh := by
  have : xs ⊆ List.range w.fresh := fun x hx => List.mem_range.2 (r.bound (r.seq_live (hs x hx)))
  have := (List.subperm_of_subset hd this).length_le
  simpa using this

/-- Searching the bucket of a key's hash with a test for that key gives the node stored under the key. -/
theorem findIn_ok {hf : List UInt8 → Nat} {w : W α} {s : S α} (r : R hf w s) (k : Key) {m : Nat → CRes Bool}
    (hm : ∀ x ∈ s.seq, m x = .ok (decide (s.key x = k))) : findIn w (hf (keyBytes k)) m = .ok (lookup s k) := by
  obtain ⟨B, hb⟩ := r.bkt
  have hlt : hf (keyBytes k) % w.tbl.length < w.tbl.length := Nat.mod_lt _ r.pos
  obtain ⟨h1, h2, h3, h4⟩ := hb _ hlt
  have hBs : ∀ x ∈ B (hf (keyBytes k) % w.tbl.length), x ∈ s.seq := fun x hx => ((h4 x).1 hx).1
  unfold findIn
  simp only [slot, if_neg (Nat.ne_of_gt r.pos), ok_bind, rd_some h1]
  rw [findLoop_ok (p := fun x => decide (s.key x = k)) _ _ none h2 (fun x hx => r.seq_live (hBs x hx))
    (fun x hx => hm x (hBs x hx)) (by have := r.length_le h3 hBs; omega)]
  congr 1
  unfold lookup
  cases hf' : s.seq.find? (fun x => decide (s.key x = k)) with
  | none =>
    rw [List.find?_eq_none] at hf' ⊢
    exact fun x hx => hf' x (hBs x hx)
  | some x =>
    have hx := List.mem_of_find?_eq_some hf'
    have hk : s.key x = k := by simpa using List.find?_some hf'
    have hxB : x ∈ B (hf (keyBytes k) % w.tbl.length) := (h4 x).2 ⟨hx, by rw [r.hkSeq hx, hk]⟩
    cases hg : (B (hf (keyBytes k) % w.tbl.length)).find? (fun x => decide (s.key x = k)) with
    | none =>
      rw [List.find?_eq_none] at hg
      exact absurd (by simpa using hk) (hg x hxB)
    | some y =>
      have hy := hBs y (List.mem_of_find?_eq_some hg)
      have hky : s.key y = k := by simpa using List.find?_some hg
      rw [r.uniq hy hx (hky.trans hk.symm)]

theorem matchInt_ok {hf : List UInt8 → Nat} {w : W α} {s : S α} (r : R hf w s) (i : Int) {x : Nat} (hx : x ∈ s.seq) :
    matchInt w i x = .ok (decide (s.key x = .int i)) := by
  have hl := r.seq_live hx
  have hk := r.keyOk hl
  simp only [matchInt, getSk, getIk, hl, if_true, ok_bind]
  congr 1
  cases h : s.key x with
  | int j => rw [h] at hk; simp [hk.1, hk.2]
  | str bs => rw [h] at hk; obtain ⟨buf, h1, -⟩ := hk; simp [h1]

theorem matchStr_ok {hf : List UInt8 → Nat} {w : W α} {s : S α} (r : R hf w s) (bs : List UInt8) {x : Nat} (hx : x ∈ s.seq) :
    matchStr w (hf bs) bs x = .ok (decide (s.key x = .str bs)) := by
  have hl := r.seq_live hx
  have hk := r.keyOk hl
  have hh := r.hkSeq hx
  simp only [matchStr, getSk, getIk, getHk, hl, if_true, ok_bind]
  cases h : s.key x with
  | int j => rw [h] at hk; simp [hk.1]
  | str cs =>
    rw [h] at hk hh
    obtain ⟨buf, h1, h2, h3, h4⟩ := hk
    simp only [h1]
    by_cases e1 : w.hk x = hf bs
    · by_cases e2 : cs.length = bs.length
      · have : w.ik x = (bs.length : Int) := by rw [h2, e2]
        rw [if_neg (by simpa using e1), if_neg (by simpa using this), ← e2]
        simp [readBytes, h3, h4]
      · have : w.ik x ≠ (bs.length : Int) := by rw [h2]; exact fun h => e2 (by exact_mod_cast h)
        rw [if_neg (by simpa using e1), if_pos this]
        have : cs ≠ bs := fun h => e2 (by rw [h])
        simp [this]
    · rw [if_pos e1]
      have : cs ≠ bs := fun h => e1 (by rw [hh, h]; rfl)
      simp [this]

theorem find_ok {hf : List UInt8 → Nat} {w : W α} {s : S α} (r : R hf w s) (k : Key) : find hf w k = .ok (lookup s k) := by
  cases k with
  | int i => exact findIn_ok r (.int i) (fun x hx => matchInt_ok r i hx)
  | str bs => exact findIn_ok r (.str bs) (fun x hx => matchStr_ok r bs hx)

theorem nodeHash_ok {hf : List UInt8 → Nat} {w : W α} {s : S α} (r : R hf w s) {x : Nat} (hl : w.lh.live x = true) :
    nodeHash hf w x = .ok (hf (keyBytes (s.key x))) := by
  have hk := r.keyOk hl
  simp only [nodeHash, getSk, getIk, hl, if_true, ok_bind]
  cases h : s.key x with
  | int j => rw [h] at hk; simp [hk.1, hk.2, keyBytes]
  | str bs =>
    rw [h] at hk
    obtain ⟨buf, h1, h2, h3, h4⟩ := hk
    simp [h1, h2, readBytes, h3, h4, keyBytes]

theorem cachedHash_ok {hf : List UInt8 → Nat} {w : W α} {s : S α} (r : R hf w s) {x : Nat} (hl : w.lh.live x = true) :
    cachedHash hf w x = .ok (hf (keyBytes (s.key x))) := by
  simp only [cachedHash, getHk, hl, if_true, ok_bind]
  by_cases h0 : w.hk x = 0
  · simp [h0, nodeHash_ok r hl]
  · simp only [h0, ne_eq, not_false_eq_true, if_true]
    congr 1
    rcases r.own hl with h | h
    · exact r.hkSeq h
    · rcases r.hkLoose h with h | h
      · exact absurd h h0
      · exact h

theorem findNode_ok {hf : List UInt8 → Nat} {w : W α} {s : S α} (r : R hf w s) {x : Nat} (hl : w.lh.live x = true) :
    findNode hf w x = .ok (lookup s (s.key x)) := by
  have hk := r.keyOk hl
  simp only [findNode, cachedHash_ok r hl, getSk, getIk, hl, if_true, ok_bind]
  cases h : s.key x with
  | int j =>
    rw [h] at hk
    simp only [hk.1, hk.2]
    exact findIn_ok r (.int j) (fun y hy => matchInt_ok r j hy)
  | str bs =>
    rw [h] at hk
    obtain ⟨buf, h1, h2, h3, h4⟩ := hk
    simp only [h1, h2, readBytes, Int.toNat_natCast, h3, if_true, h4, ok_bind]
    exact findIn_ok r (.str bs) (fun y hy => matchStr_ok r bs hy)

/-! ## Resizing -/

theorem rehashLoop_ok : ∀ (rest : List Nat) (k : Nat) (w : W α) (done : List Nat) (q : Option Nat),
    Buckets w.hp w.hn w.hk w.tbl done → (∀ y ∈ done, w.lh.live y = true) → (∀ y ∈ rest, w.lh.live y = true) →
    (∀ y ∈ rest, y ∉ done) → rest.Nodup → Seg w.lh.pv w.lh.nx q rest none → 0 < w.tbl.length → rest.length < k →
    ∃ hp' hn' t', rehashLoop k w rest.head? = .ok { w with hp := hp', hn := hn', tbl := t' } ∧ t'.length = w.tbl.length ∧
      Buckets hp' hn' w.hk t' (rest ++ done) ∧ (∀ y, y ∉ rest → y ∉ done → hp' y = w.hp y ∧ hn' y = w.hn y)
  | [], k + 1, w, done, q, hb, _, _, _, _, _, _, _ => ⟨w.hp, w.hn, w.tbl, rfl, rfl, hb, fun _ _ _ => ⟨rfl, rfl⟩⟩
  | x :: rest, k + 1, w, done, q, hb, hd, hr, hdis, hnd, hs, hpos, hk => by
    have hlx := hr x (by simp)
    have hxd := hdis x (by simp)
    have hnd' := List.nodup_cons.1 hnd
    have hb1 : Buckets (upd w.hp x none) w.hn w.hk w.tbl done :=
      hb.congr (fun _ => Iff.rfl) (fun y hy => ⟨upd_other _ _ (ne_of_mem hy hxd), rfl, rfl⟩)
    obtain ⟨hp1, hn1, t1, h1, h2, h3, h4⟩ := attachHash_ok (w := { w with hp := upd w.hp x none }) hb1 hd hlx hxd (by simp) hpos
    have hnx : w.lh.nx x = rest.head? := by have := hs.2.1; simpa using this
    obtain ⟨hp2, hn2, t2, g1, g2, g3, g4⟩ := rehashLoop_ok rest k { w with hp := hp1, hn := hn1, tbl := t1 } (x :: done) (some x)
      h3 (fun y hy => by
        rcases List.mem_cons.1 hy with rfl | hy
        · exact hlx
        · exact hd y hy) (fun y hy => hr y (by simp [hy]))
      (fun y hy h => by
        rcases List.mem_cons.1 h with rfl | h
        · exact hnd'.1 hy
        · exact hdis y (by simp [hy]) h) hnd'.2 hs.2.2 (by show 0 < t1.length; rw [h2]; exact hpos)
      (by simp only [List.length_cons] at hk; omega)
    refine ⟨hp2, hn2, t2, ?_, by rw [g2]; exact h2, ?_, fun y hy hyd => ?_⟩
    · simp only [List.head?_cons, rehashLoop, setHp, hlx, if_true, ok_bind, h1, getNx, hnx]
      exact g1
    · refine g3.congr (fun y => ?_) (fun _ _ => ⟨rfl, rfl, rfl⟩)
      simp only [List.mem_append, List.mem_cons]
      tauto
    · simp only [List.mem_cons, not_or] at hy
      obtain ⟨a, b⟩ := g4 y hy.2 (by simp [hy.1, hyd])
      obtain ⟨c, d⟩ := h4 y hy.1 hyd
      refine ⟨a.trans (c.trans ?_), b.trans d⟩
      exact upd_other _ _ hy.1

/-- Everything of the relation that is not about the table. -/
structure Core (hf : List UInt8 → Nat) (w : W α) (s : S α) : Prop where
  chain : Chain w.lh w.ends s.seq
  num : w.num = s.seq.length
  keyOk : ∀ {x : Nat}, w.lh.live x = true → KeyRep (w.ik x) (w.sk x) (s.key x)
  hkSeq : ∀ {x : Nat}, x ∈ s.seq → w.hk x = hf (keyBytes (s.key x))
  hkLoose : ∀ {x : Nat}, x ∈ s.loose → w.hk x = 0 ∨ w.hk x = hf (keyBytes (s.key x))
  uniq : ∀ {x y : Nat}, x ∈ s.seq → y ∈ s.seq → s.key x = s.key y → x = y
  looseOk : ∀ {x : Nat}, x ∈ s.loose → w.lh.live x = true ∧ (s.stale x = false → w.lh.pv x = none) ∧
    (s.stale x = false → w.lh.nx x = none) ∧ w.hp x = none ∧ w.hn x = none
  looseNd : s.loose.Nodup
  looseDisj : ∀ {x : Nat}, x ∈ s.seq → x ∉ s.loose
  own : ∀ {x : Nat}, w.lh.live x = true → x ∈ s.seq ∨ x ∈ s.loose
  fresh : w.fresh = s.fresh
  bound : ∀ {x : Nat}, w.lh.live x = true → x < w.fresh
  val : ∀ {x : Nat}, w.lh.live x = true → w.val x = s.val x

theorem R.core {hf : List UInt8 → Nat} {w : W α} {s : S α} (r : R hf w s) : Core hf w s :=
  ⟨r.chain, r.num, r.keyOk, r.hkSeq, r.hkLoose, r.uniq, r.looseOk, r.looseNd, r.looseDisj, r.own, r.fresh, r.bound, r.val⟩

/-- Changing the table and the hash links of the nodes in the hash. -/
theorem Core.withTable {hf : List UInt8 → Nat} {w : W α} {s : S α} (c : Core hf w s) {hp hn : Nat → Option Nat}
    {t : List (Option Nat)} {n : Nat} (hpos : 0 < t.length) (hb : Buckets hp hn w.hk t s.seq)
    (hl : ∀ y, y ∉ s.seq → hp y = w.hp y ∧ hn y = w.hn y) :
    R hf { w with hp := hp, hn := hn, tbl := t, npp := n } s := by
  refine ⟨c.chain, c.num, hpos, hb, c.keyOk, c.hkSeq, c.hkLoose, c.uniq, fun {x} hx => ?_, c.looseNd, c.looseDisj, c.own,
    c.fresh, c.bound, c.val⟩
  obtain ⟨h1, h2, h3, h4, h5⟩ := c.looseOk hx
  obtain ⟨h6, h7⟩ := hl x (fun h => c.looseDisj h hx)
  exact ⟨h1, h2, h3, h6.trans h4, h7.trans h5⟩

theorem Core.length_le {hf : List UInt8 → Nat} {w : W α} {s : S α} (r : Core hf w s) : s.seq.length ≤ w.fresh := by
  have : s.seq ⊆ List.range w.fresh := fun x hx => List.mem_range.2 (r.bound (r.chain.live x hx))
  have := (List.subperm_of_subset r.chain.nodup this).length_le
  simpa using this

theorem resize_ok {hf : List UInt8 → Nat} {w : W α} {s : S α} (c : Core hf w s) {n : Nat} (hn : n ≠ 0) :
    ∃ w', resize w n = .ok (true, w') ∧ R hf w' s := by
  obtain ⟨hp', hn', t', h1, h2, h3, h4⟩ := rehashLoop_ok s.seq (w.fresh + 1) { w with tbl := List.replicate n none } [] none
    (Buckets.empty _ _ _ _) (by simp) c.chain.live (by simp) c.chain.nodup c.chain.seg (by simp; omega)
    (by have := c.length_le; simp; omega)
  rw [List.append_nil] at h3
  simp only [List.length_replicate] at h2
  refine ⟨_, ?_, c.withTable (n := nextPrimePos n) (by rw [h2]; omega) h3 (fun y hy => h4 y hy (by simp))⟩
  unfold resize
  rw [if_neg hn, c.chain.first, h1]
  rfl

/-! ## Creating, deleting, keys -/

theorem R.create {hf : List UInt8 → Nat} {w : W α} {s : S α} (r : R hf w s) (k : Key) (v : α) :
    R hf (createNode w k v).2 (create s k v) ∧ (createNode w k v).1 = s.fresh := by
  have hb : ∀ {x : Nat}, w.lh.live x = true → x ≠ w.fresh := fun h e => by have := r.bound h; omega
  have hsl : ∀ {x : Nat}, x ∈ s.seq → x ≠ w.fresh := fun h => hb (r.seq_live h)
  have hlo : ∀ {x : Nat}, x ∈ s.loose → x ≠ w.fresh := fun h => hb (r.looseOk h).1
  have hlive : ∀ {x : Nat}, upd w.lh.live w.fresh true x = true → x = w.fresh ∨ (x ≠ w.fresh ∧ w.lh.live x = true) := by
    intro x h
    by_cases e : x = w.fresh
    · exact Or.inl e
    · rw [upd_other _ _ e] at h; exact Or.inr ⟨e, h⟩
  have ef := r.fresh
  refine ⟨⟨?_, r.num, r.pos, ?_, ?_, ?_, ?_, ?_, ?_, ?_, ?_, ?_, ?_, ?_, ?_⟩, r.fresh⟩
  · refine ⟨seg_congr (fun y hy => ⟨upd_other _ _ (hsl hy), upd_other _ _ (hsl hy)⟩) r.chain.seg, r.chain.first, r.chain.last,
      fun y hy => ?_, r.chain.nodup⟩
    show upd w.lh.live w.fresh true y = true
    rw [upd_other _ _ (hsl hy)]; exact r.seq_live hy
  · exact r.bkt.congr (fun _ => Iff.rfl) (fun y hy => ⟨upd_other _ _ (hsl hy), upd_other _ _ (hsl hy), upd_other _ _ (hsl hy)⟩)
  · intro x hx
    simp only [createNode, Spec.create]
    rcases hlive hx with e | ⟨e, h⟩
    · rw [e, upd_same, upd_same, ← ef, upd_same]
      cases k with
      | int i => exact ⟨rfl, rfl⟩
      | str bs => exact ⟨bs, rfl, rfl, Nat.le_refl _, by simp⟩
    · rw [upd_other _ _ e, upd_other _ _ e, ← ef, upd_other _ _ e]; exact r.keyOk h
  · intro x hx
    have e := hsl hx
    simp only [createNode, Spec.create]
    rw [upd_other _ _ e, ← ef, upd_other _ _ e]; exact r.hkSeq hx
  · intro x hx
    simp only [createNode, Spec.create]
    rcases List.mem_cons.1 hx with e | hx
    · rw [← ef] at e; rw [e, upd_same]; exact Or.inl rfl
    · have e := hlo hx
      rw [upd_other _ _ e, ← ef, upd_other _ _ e]; exact r.hkLoose hx
  · intro x y hx hy h
    simp only [Spec.create] at h
    rw [← ef, upd_other _ _ (hsl hx), upd_other _ _ (hsl hy)] at h
    exact r.uniq hx hy h
  · intro x hx
    simp only [createNode]
    rcases List.mem_cons.1 hx with e | hx
    · rw [← ef] at e; rw [e]; simp
    · have e := hlo hx
      simp only [upd_other _ _ e, Spec.create]
      rw [← ef, upd_other _ _ e]; exact r.looseOk hx
  · refine List.nodup_cons.2 ⟨fun h => hlo h ef.symm, r.looseNd⟩
  · intro x hx h
    rcases List.mem_cons.1 h with e | h
    · exact hsl hx (e.trans ef.symm)
    · exact r.looseDisj hx h
  · intro x hx
    rcases hlive hx with e | ⟨e, h⟩
    · exact Or.inr (by rw [e, ef]; simp [Spec.create])
    · rcases r.own h with h | h
      · exact Or.inl h
      · exact Or.inr (by simp [Spec.create, h])
  · simp [createNode, Spec.create, ef]
  · intro x hx
    show x < w.fresh + 1
    rcases hlive hx with e | ⟨e, h⟩
    · omega
    · have := r.bound h; omega
  · intro x hx
    simp only [createNode, Spec.create]
    rcases hlive hx with e | ⟨e, h⟩
    · rw [e, upd_same, ← ef, upd_same]
    · rw [upd_other _ _ e, ← ef, upd_other _ _ e]; exact r.val h

theorem R.delete {hf : List UInt8 → Nat} {w : W α} {s : S α} (r : R hf w s) {x : Nat} (hx : x ∈ s.loose) :
    ∃ w', deleteNode w x = .ok w' ∧ R hf w' { s with loose := s.loose.erase x } := by
  have hl := r.looseOk hx
  refine ⟨{ w with lh := { w.lh with live := upd w.lh.live x false } }, by simp [deleteNode, hl.1], ?_⟩
  have hlive : ∀ {y : Nat}, upd w.lh.live x false y = true → y ≠ x ∧ w.lh.live y = true := by
    intro y hy
    by_cases e : y = x
    · rw [e, upd_same] at hy; cases hy
    · rw [upd_other _ _ e] at hy; exact ⟨e, hy⟩
  have hsx : ∀ {y : Nat}, y ∈ s.seq → y ≠ x := fun h e => r.looseDisj h (e ▸ hx)
  refine ⟨⟨r.chain.seg, r.chain.first, r.chain.last, fun y hy => ?_, r.chain.nodup⟩, r.num, r.pos, r.bkt,
    fun h => r.keyOk (hlive h).2, r.hkSeq, fun h => r.hkLoose (List.mem_of_mem_erase h), r.uniq, fun {y} h => ?_,
    r.looseNd.erase x, fun h1 h2 => r.looseDisj h1 (List.mem_of_mem_erase h2), fun {y} h => ?_, r.fresh,
    fun h => r.bound (hlive h).2, fun h => r.val (hlive h).2⟩
  · show upd w.lh.live x false y = true
    rw [upd_other _ _ (hsx hy)]; exact r.seq_live hy
  · have hy := List.mem_of_mem_erase h
    have hne : y ≠ x := fun e => by
      rw [e] at h
      exact (List.Nodup.not_mem_erase r.looseNd) h
    have := r.looseOk hy
    exact ⟨by show upd w.lh.live x false y = true; rw [upd_other _ _ hne]; exact this.1, this.2⟩
  · obtain ⟨hne, h⟩ := hlive h
    rcases r.own h with h | h
    · exact Or.inl h
    · exact Or.inr ((List.mem_erase_of_ne hne).2 h)

theorem R.setKey {hf : List UInt8 → Nat} {w : W α} {s : S α} (r : R hf w s) {x : Nat} (hx : x ∈ s.loose) {k : Key}
    {ik : Int} {sk : Option (List UInt8)} (hk : KeyRep ik sk k) :
    R hf { w with hk := upd w.hk x 0, ik := upd w.ik x ik, sk := upd w.sk x sk } { s with key := upd s.key x k } := by
  have hsx : ∀ {y : Nat}, y ∈ s.seq → y ≠ x := fun h e => r.looseDisj h (e ▸ hx)
  refine ⟨r.chain, r.num, r.pos, r.bkt.congr (fun _ => Iff.rfl) (fun y hy => ⟨rfl, rfl, upd_other _ _ (hsx hy)⟩),
    fun {y} h => ?_, fun {y} hy => ?_, fun {y} hy => ?_, fun {y z} hy hz h => ?_, r.looseOk, r.looseNd, r.looseDisj, r.own,
    r.fresh, r.bound, r.val⟩
  · simp only
    by_cases e : y = x
    · rw [e]; simp only [upd_same]; exact hk
    · simp only [upd_other _ _ e]; exact r.keyOk h
  · simp only
    rw [upd_other _ _ (hsx hy), upd_other _ _ (hsx hy)]; exact r.hkSeq hy
  · simp only
    by_cases e : y = x
    · rw [e]; simp only [upd_same]; exact Or.inl trivial
    · simp only [upd_other _ _ e]; exact r.hkLoose hy
  · simp only at h
    rw [upd_other _ _ (hsx hy), upd_other _ _ (hsx hz)] at h
    exact r.uniq hy hz h

theorem copyStr_ok {ik : Int} {sk : Option (List UInt8)} {k : Key} (h : KeyRep ik sk k) (bs : List UInt8) :
    ∃ buf, copyStr sk ik bs = .ok buf ∧ KeyRep (bs.length : Int) (some buf) (.str bs) := by
  have new : KeyRep (bs.length : Int) (some bs) (.str bs) := ⟨bs, rfl, rfl, Nat.le_refl _, by simp⟩
  cases k with
  | int i => rw [h.1]; exact ⟨bs, rfl, new⟩
  | str cs =>
    obtain ⟨buf, h1, h2, h3, h4⟩ := h
    rw [h1, h2]
    by_cases e : (cs.length : Int) < (bs.length : Int)
    · exact ⟨bs, by simp only [copyStr, if_pos e], new⟩
    · have hle : bs.length ≤ buf.length := by omega
      refine ⟨bs ++ buf.drop bs.length, ?_, _, rfl, rfl, by simp, by simp⟩
      simp only [copyStr, if_neg e, memcpyTo, Nat.le_refl, if_true, Nat.zero_add, hle, List.take_zero, List.nil_append,
        List.take_length]

/-- Caching the hash of a loose node. -/
theorem R.cache {hf : List UInt8 → Nat} {w : W α} {s : S α} (r : R hf w s) {x : Nat} (hl : w.lh.live x = true) :
    ∃ w', cacheHash hf w x = .ok w' ∧ R hf w' s ∧ w'.hk x = hf (keyBytes (s.key x)) ∧ w'.lh = w.lh ∧ w'.hp = w.hp ∧
      w'.hn = w.hn := by
  refine ⟨{ w with hk := upd w.hk x (hf (keyBytes (s.key x))) }, by simp [cacheHash, cachedHash_ok r hl], ?_, by simp, rfl, rfl, rfl⟩
  have hs : ∀ {y : Nat}, y ∈ s.seq → upd w.hk x (hf (keyBytes (s.key x))) y = w.hk y := by
    intro y hy
    by_cases e : y = x
    · rw [e, upd_same]; rw [e] at hy; exact (r.hkSeq hy).symm
    · exact upd_other _ _ e
  refine ⟨r.chain, r.num, r.pos, r.bkt.congr (fun _ => Iff.rfl) (fun y hy => ⟨rfl, rfl, hs hy⟩), r.keyOk,
    fun {y} hy => by simp only; rw [hs hy]; exact r.hkSeq hy, fun {y} hy => ?_, r.uniq, r.looseOk, r.looseNd, r.looseDisj, r.own,
    r.fresh, r.bound, r.val⟩
  simp only
  by_cases e : y = x
  · rw [e, upd_same]; exact Or.inr rfl
  · rw [upd_other _ _ e]; exact r.hkLoose hy

/-! ## Inserting -/

theorem nextTo_eq {x b : Nat} (a : Bool) : ∀ {xs : List Nat}, b ∈ xs →
    ∃ as bs, xs = as ++ b :: bs ∧ nextTo a x b xs = as ++ (if a then b :: x :: bs else x :: b :: bs)
  | y :: ys, h => by
    by_cases e : y = b
    · subst e; exact ⟨[], ys, rfl, by simp [nextTo]⟩
    · have hb : b ∈ ys := by
        rcases List.mem_cons.1 h with h | h
        · exact absurd h.symm e
        · exact h
      obtain ⟨as, bs, h1, h2⟩ := nextTo_eq (x := x) a hb
      exact ⟨y :: as, bs, by rw [h1]; rfl, by simp [nextTo, e, h2]⟩

theorem linkOf_ok {h : LH} {e : Ends} {xs ys : List Nat} {x : Nat} {a : Bool} {n : Option Nat} (c : Chain h e xs)
    (hx : x ∉ xs) (hl : h.live x = true) (hp : n = none → h.pv x = none) (hn : n = none → h.nx x = none) (hs : ins xs x a n = some ys) :
    ∃ h' e', linkOf a n x h e = .ok (h', e') ∧ Chain h' e' ys ∧ Frame h h' (x :: xs) ∧ (∀ y, y ∈ ys ↔ y = x ∨ y ∈ xs) ∧
      ys.length = xs.length + 1 := by
  have fr : ∀ {h' : LH} {zs : List Nat}, Frame h h' zs → (∀ y ∈ zs, y = x ∨ y ∈ xs) → Frame h h' (x :: xs) := by
    intro h' zs f hz
    have : ∀ y, y ∉ x :: xs → y ∉ zs := fun y hy h => hy (by
      rcases hz y h with h | h <;> simp [h])
    exact ⟨f.live, fun y hy => f.pv y (this y hy), fun y hy => f.nx y (this y hy)⟩
  unfold linkOf
  cases n with
  | none =>
    cases a with
    | false =>
      cases hs
      obtain ⟨h', e', h1, h2, h3⟩ := linkBefore_end c hx hl (hn rfl)
      exact ⟨h', e', by simpa using h1, h2, fr h3 (fun y => by simp; tauto), fun y => by simp; tauto, by simp⟩
    | true =>
      cases hs
      obtain ⟨h', e', h1, h2, h3⟩ := linkAfter_front c hx hl (hp rfl)
      exact ⟨h', e', by simpa using h1, h2, fr h3 (fun y => by simp), fun y => by simp, by simp⟩
  | some b =>
    simp only [ins] at hs
    split at hs
    next hb =>
      cases hs
      obtain ⟨as, bs, h1, h2⟩ := nextTo_eq (x := x) a hb
      rw [h2]
      subst h1
      cases a with
      | false =>
        obtain ⟨h', e', h1, h2, h3⟩ := linkBefore_mid c hx hl
        exact ⟨h', e', by simpa using h1, h2, fr h3 (fun y => by simp; tauto), fun y => by simp; tauto, by simp; omega⟩
      | true =>
        obtain ⟨h', e', h1, h2, h3⟩ := linkAfter_mid c hx hl
        exact ⟨h', e', by simpa using h1, h2, fr h3 (fun y => by simp; tauto), fun y => by simp; tauto, by simp; omega⟩
    next => cases hs

/-- The node is in the ordered list and counted, but not yet in the table. -/
theorem R.linked {hf : List UInt8 → Nat} {w : W α} {s : S α} (r : R hf w s) {x : Nat} (hx : x ∈ s.loose)
    (hhk : w.hk x = hf (keyBytes (s.key x))) (hfind : lookup s (s.key x) = none) {ys : List Nat} {h' : LH} {e' : Ends}
    (hc : Chain h' e' ys) (hfr : Frame w.lh h' (x :: s.seq)) (hm : ∀ y, y ∈ ys ↔ y = x ∨ y ∈ s.seq)
    (hlen : ys.length = s.seq.length + 1) :
    Core hf { w with lh := h', ends := e', num := w.num + 1 } { s with seq := ys, loose := s.loose.erase x, stale := upd s.stale x false } := by
  have hlx := r.looseOk hx
  have hlive : ∀ {y : Nat}, h'.live y = true → w.lh.live y = true := fun h => by rw [hfr.live] at h; exact h
  have nokey : ∀ {y : Nat}, y ∈ s.seq → s.key y ≠ s.key x := by
    intro y hy e
    have := List.find?_eq_none.1 hfind y hy
    exact this (by simpa using e)
  refine ⟨hc, by simp [r.num, hlen], fun h => r.keyOk (hlive h), fun {y} hy => ?_, fun {y} hy => r.hkLoose (List.mem_of_mem_erase hy),
    fun {y z} hy hz h => ?_, fun {y} hy => ?_, r.looseNd.erase x, fun {y} hy h => ?_, fun {y} hy => ?_, r.fresh,
    fun h => r.bound (hlive h), fun h => r.val (hlive h)⟩
  · rcases (hm y).1 hy with rfl | hy
    · exact hhk
    · exact r.hkSeq hy
  · rcases (hm y).1 hy with ey | hy'
    · rcases (hm z).1 hz with ez | hz'
      · exact ey.trans ez.symm
      · exact absurd (by rw [ey] at h; exact h.symm) (nokey hz')
    · rcases (hm z).1 hz with ez | hz'
      · exact absurd (by rw [ez] at h; exact h) (nokey hy')
      · exact r.uniq hy' hz' h
  · have hy' := List.mem_of_mem_erase hy
    have hne : y ≠ x := fun e => by rw [e] at hy; exact (List.Nodup.not_mem_erase r.looseNd) hy
    have hnot : y ∉ x :: s.seq := by
      simp only [List.mem_cons, not_or]
      exact ⟨hne, fun h => r.looseDisj h hy'⟩
    obtain ⟨h1, h2, h3, h4, h5⟩ := r.looseOk hy'
    show h'.live y = true ∧ (upd s.stale x false y = false → h'.pv y = none) ∧ (upd s.stale x false y = false → h'.nx y = none) ∧ _
    rw [hfr.live, hfr.pv y hnot, hfr.nx y hnot, upd_other _ _ hne]
    exact ⟨h1, h2, h3, h4, h5⟩
  · rcases (hm y).1 hy with rfl | hy
    · exact (List.Nodup.not_mem_erase r.looseNd) h
    · exact r.looseDisj hy (List.mem_of_mem_erase h)
  · rcases r.own (hlive hy) with h | h
    · exact Or.inl ((hm y).2 (Or.inr h))
    · by_cases e : y = x
      · exact Or.inl ((hm y).2 (Or.inl e))
      · exact Or.inr ((List.mem_erase_of_ne e).2 h)

theorem primes_pos {i p : Nat} (h : primes[i]? = some p) : p ≠ 0 := by
  have : p ∈ primes := List.mem_of_getElem? h
  have h0 : (0 : Nat) ∉ primes := by decide
  exact fun e => h0 (e ▸ this)

/-- Inserting a loose node whose key is not present. -/
theorem insertN_place {hf : List UInt8 → Nat} {w : W α} {s : S α} (r : R hf w s) {x : Nat} (hx : x ∈ s.loose)
    (hfind : lookup s (s.key x) = none) {a : Bool} {n : Option Nat} (hst : n = none → s.stale x = false) {ys : List Nat} (hys : ins s.seq x a n = some ys) :
    ∃ w', insertN hf w x (linkOf a n x) = .ok (some x, w') ∧ R hf w' { s with seq := ys, loose := s.loose.erase x, stale := upd s.stale x false } := by
  have hlx := r.looseOk hx
  have ht : attachedTest w x = .ok false := by simp [attachedTest, getHp, getHn, hlx.1, hlx.2.2.2.1, hlx.2.2.2.2]
  obtain ⟨w1, h1, r1, hhk, e1, e2, e3⟩ := r.cache hlx.1
  have hlx1 := r1.looseOk hx
  have hxs : x ∉ s.seq := fun h => r.looseDisj h hx
  obtain ⟨h', en', hl, hc, hfr, hm, hlen⟩ := linkOf_ok r1.chain hxs hlx1.1 (fun e => hlx1.2.1 (hst e)) (fun e => hlx1.2.2.1 (hst e)) hys
  have core := r1.linked hx hhk hfind hc hfr hm hlen
  have hgo : ∃ w', growOrAttach { w1 with lh := h', ends := en', num := w1.num + 1 } x = .ok w' ∧
      R hf w' { s with seq := ys, loose := s.loose.erase x, stale := upd s.stale x false } := by
    have hatt : ∃ w', attachHash { w1 with lh := h', ends := en', num := w1.num + 1 } x = .ok w' ∧
        R hf w' { s with seq := ys, loose := s.loose.erase x, stale := upd s.stale x false } := by
      obtain ⟨hp', hn', t', g1, g2, g3, g4⟩ := attachHash_ok (w := { w1 with lh := h', ends := en', num := w1.num + 1 })
        (xs := s.seq) (x := x) r1.bkt
        (fun y hy => by show h'.live y = true; rw [hfr.live]; exact r1.seq_live hy)
        (by show h'.live x = true; rw [hfr.live]; exact hlx1.1) hxs hlx1.2.2.2.1 r1.pos
      refine ⟨_, g1, core.withTable (n := w1.npp) (by rw [g2]; exact r1.pos) ?_ ?_⟩
      · exact g3.congr (fun y => by rw [hm y]; simp) (fun _ _ => ⟨rfl, rfl, rfl⟩)
      · intro y hy
        rw [hm y, not_or] at hy
        exact g4 y hy.1 hy.2
    unfold growOrAttach
    simp only
    split
    next p hp =>
      split
      · obtain ⟨w', h2, r2⟩ := resize_ok core (primes_pos hp)
        exact ⟨w', by rw [h2]; rfl, r2⟩
      · exact hatt
    next => exact hatt
  obtain ⟨w', hgo, r'⟩ := hgo
  refine ⟨w', ?_, r'⟩
  unfold insertN
  simp only [ht, ok_bind, Bool.false_eq_true, if_false, h1, findNode_ok r1 hlx1.1, hfind, Option.isSome_none, attachList, hl, hgo]

/-- A loose node whose key is present, or a node that is in the hash, is refused. -/
theorem insertN_refuse {hf : List UInt8 → Nat} {w : W α} {s : S α} (r : R hf w s) {x y : Nat}
    (hl : w.lh.live x = true) (hfind : lookup s (s.key x) = some y) (link : LH → Ends → CRes (LH × Ends)) :
    ∃ w', insertN hf w x link = .ok (none, w') ∧ R hf w' s ∧ w'.fresh = w.fresh := by
  unfold insertN
  simp only [attachedTest, getHp, getHn, hl, if_true, ok_bind]
  obtain ⟨w1, h1, r1, hhk, e1, e2, e3⟩ := r.cache hl
  have hl1 : w1.lh.live x = true := by rw [e1]; exact hl
  have ef : w1.fresh = w.fresh := by rw [r1.fresh, r.fresh]
  cases h2 : w.hp x with
  | some p => exact ⟨w, by simp, r, rfl⟩
  | none =>
    cases h3 : w.hn x with
    | some q => exact ⟨w, by simp, r, rfl⟩
    | none => exact ⟨w1, by simp [h1, findNode_ok r1 hl1, hfind], r1, ef⟩

theorem lookup_self {hf : List UInt8 → Nat} {w : W α} {s : S α} (r : R hf w s) {x : Nat} (hx : x ∈ s.seq) :
    lookup s (s.key x) = some x := by
  unfold lookup
  cases h : s.seq.find? (fun y => decide (s.key y = s.key x)) with
  | none => exact absurd (by simp) (List.find?_eq_none.1 h x hx)
  | some y =>
    have hy := List.mem_of_find?_eq_some h
    have hk : s.key y = s.key x := by simpa using List.find?_some h
    rw [r.uniq hy hx hk]

/-! ## Detaching -/

theorem R.detach {hf : List UInt8 → Nat} {w : W α} {s : S α} (r : R hf w s) {x : Nat} (hx : x ∈ s.seq) (reset : Bool) :
    ∃ w', detach w (some x) reset = .ok (true, w') ∧ R hf w' { s with seq := s.seq.erase x, loose := x :: s.loose } := by
  obtain ⟨as, bs, hsplit⟩ := List.append_of_mem hx
  have hnd := r.chain.nodup
  rw [hsplit] at hnd
  have hnd' := List.nodup_append.1 hnd
  have hxas : x ∉ as := fun h => hnd'.2.2 x h x (by simp) rfl
  have hxbs : x ∉ bs := (List.nodup_cons.1 hnd'.2.1).1
  have her : s.seq.erase x = as ++ bs := by
    rw [hsplit, List.erase_append_right _ hxas]; simp
  have c0 := r.chain
  rw [hsplit] at c0
  obtain ⟨h', e', h1, h2, h3, h4, h5⟩ := unlink_ok c0
  have hys : ∀ y, y ∈ as ++ bs ↔ y ∈ s.seq ∧ y ≠ x := by
    intro y
    rw [hsplit]
    simp only [List.mem_append, List.mem_cons]
    constructor
    · rintro (h | h)
      · exact ⟨Or.inl h, fun e => hxas (e ▸ h)⟩
      · exact ⟨Or.inr (Or.inr h), fun e => hxbs (e ▸ h)⟩
    · rintro ⟨h | h | h, hne⟩
      · exact Or.inl h
      · exact absurd h hne
      · exact Or.inr h
  have hlive : ∀ y, h'.live y = w.lh.live y := fun y => by rw [h3.live]
  obtain ⟨hp', hn', t', g1, g2, g3, g4, g5, g6⟩ := unhash_ok (w := { w with lh := h', ends := e', num := dec w.num }) (x := x)
    (ys := as ++ bs) r.bkt (fun y hy => by rw [hlive]; exact r.seq_live hy) hx r.pos hys
  have hnum : dec w.num = (as ++ bs).length := by
    rw [r.num, hsplit]
    simp [dec]
  rw [her]
  refine ⟨{ w with lh := h', ends := e', num := dec w.num, hp := hp', hn := hn', tbl := t',
                   hk := if reset then upd w.hk x 0 else w.hk }, ?_, ?_⟩
  · simp only [OrderedHash.detach, h1, ok_bind, g1]
    cases reset <;> rfl
  · have hks : ∀ {y : Nat}, y ≠ x → (if reset then upd w.hk x 0 else w.hk) y = w.hk y := by
      intro y hy
      split
      · exact upd_other _ _ hy
      · rfl
    have hsub : ∀ {y : Nat}, y ∈ as ++ bs → y ∈ s.seq := fun h => ((hys _).1 h).1
    refine ⟨h2, hnum, by show 0 < t'.length; rw [g2]; exact r.pos,
      g3.congr (fun _ => Iff.rfl) (fun y hy => ⟨rfl, rfl, hks ((hys y).1 hy).2⟩),
      fun {y} h => r.keyOk (by rw [← hlive]; exact h), fun {y} hy => ?_, fun {y} hy => ?_,
      fun {y z} hy hz h => r.uniq (hsub hy) (hsub hz) h, fun {y} hy => ?_, ?_, fun {y} hy h => ?_, fun {y} hy => ?_,
      r.fresh, fun {y} h => r.bound (by rw [← hlive]; exact h), fun {y} h => r.val (by rw [← hlive]; exact h)⟩
    · simp only
      rw [hks ((hys y).1 hy).2]; exact r.hkSeq (hsub hy)
    · simp only
      rcases List.mem_cons.1 hy with rfl | hy
      · cases reset
        · exact Or.inr (r.hkSeq hx)
        · exact Or.inl (by simp)
      · rw [hks (fun e => r.looseDisj hx (e ▸ hy))]; exact r.hkLoose hy
    · rcases List.mem_cons.1 hy with rfl | hy
      · exact ⟨by simp only; rw [hlive]; exact r.seq_live hx, fun _ => h4, fun _ => h5, g4, g5⟩
      · have hns : y ∉ s.seq := fun h => r.looseDisj h hy
        have hns' : y ∉ as ++ x :: bs := by rw [← hsplit]; exact hns
        obtain ⟨k1, k2, k3, k4, k5⟩ := r.looseOk hy
        obtain ⟨l1, l2⟩ := g6 y hns
        exact ⟨by simp only; rw [hlive]; exact k1, by simp only; rw [h3.pv y hns']; exact k2,
          by simp only; rw [h3.nx y hns']; exact k3, l1.trans k4, l2.trans k5⟩
    · exact List.nodup_cons.2 ⟨r.looseDisj hx, r.looseNd⟩
    · rcases List.mem_cons.1 h with rfl | h
      · exact ((hys _).1 hy).2 rfl
      · exact r.looseDisj (hsub hy) h
    · rcases r.own (by rw [← hlive]; exact hy) with h | h
      · by_cases e : y = x
        · exact Or.inr (by simp [e])
        · exact Or.inl ((hys y).2 ⟨h, e⟩)
      · exact Or.inr (by simp [h])

theorem R.remove {hf : List UInt8 → Nat} {w : W α} {s : S α} (r : R hf w s) {x : Nat} (hx : x ∈ s.seq) :
    ∃ w', remove w (some x) = .ok (true, w') ∧ R hf w' { s with seq := s.seq.erase x } := by
  obtain ⟨w1, h1, r1⟩ := r.detach hx false
  obtain ⟨w2, h2, r2⟩ := r1.delete (x := x) (by simp)
  refine ⟨w2, by simp [OrderedHash.remove, h1, h2], ?_⟩
  simpa using r2

/-! ## Emptying -/

theorem emptyLoop_ok : ∀ (rest : List Nat) (k : Nat) (w : W α) (q : Option Nat),
    Seg w.lh.pv w.lh.nx q rest none → (∀ x ∈ rest, w.lh.live x = true) → rest.Nodup → rest.length < k →
    ∃ lv, emptyLoop k w rest.head? = .ok { w with lh := { w.lh with live := lv } } ∧
      (∀ y, lv y = true ↔ w.lh.live y = true ∧ y ∉ rest)
  | [], k + 1, w, q, _, _, _, _ => ⟨w.lh.live, rfl, by simp⟩
  | x :: rest, k + 1, w, q, hs, hl, hnd, hk => by
    have hlx := hl x (by simp)
    have hnd' := List.nodup_cons.1 hnd
    have hnx : w.lh.nx x = rest.head? := by have := hs.2.1; simpa using this
    obtain ⟨lv, h1, h2⟩ := emptyLoop_ok rest k { w with lh := { w.lh with live := upd w.lh.live x false } } (some x) hs.2.2
      (fun y hy => by
        show upd w.lh.live x false y = true
        rw [upd_other _ _ (ne_of_mem hy hnd'.1)]; exact hl y (by simp [hy])) hnd'.2
      (by simp only [List.length_cons] at hk; omega)
    refine ⟨lv, ?_, fun y => ?_⟩
    · simp only [List.head?_cons, emptyLoop, getNx, hlx, if_true, ok_bind, hnx, deleteNode]
      exact h1
    · rw [h2 y]
      simp only [List.mem_cons, not_or]
      by_cases e : y = x
      · simp [e]
      · simp [upd_other _ _ e, e]

theorem R.empty {hf : List UInt8 → Nat} {w : W α} {s : S α} (r : R hf w s) :
    ∃ w', empty w = .ok w' ∧ R hf w' { s with seq := [] } := by
  obtain ⟨lv, h1, h2⟩ := emptyLoop_ok s.seq (w.fresh + 1) w none r.chain.seg r.chain.live r.chain.nodup
    (by have := r.core.length_le; omega)
  refine ⟨_, by unfold OrderedHash.empty; rw [r.chain.first, h1]; rfl, ?_⟩
  refine ⟨⟨trivial, rfl, rfl, by simp, List.nodup_nil⟩, rfl, by simp [r.pos], Buckets.empty _ _ _ _,
    fun h => r.keyOk ((h2 _).1 h).1, by simp, r.hkLoose, by simp, fun {y} hy => ?_, r.looseNd, by simp, fun {y} hy => ?_, r.fresh,
    fun h => r.bound ((h2 _).1 h).1, fun h => r.val ((h2 _).1 h).1⟩
  · obtain ⟨k1, k2⟩ := r.looseOk hy
    exact ⟨(h2 y).2 ⟨k1, fun h => r.looseDisj h hy⟩, k2⟩
  · obtain ⟨h, hn⟩ := (h2 y).1 hy
    rcases r.own h with h | h
    · exact absurd h hn
    · exact Or.inr h

theorem releaseLoop_ok (reset : Bool) : ∀ (rest : List Nat) (k : Nat) (w : W α) (q : Option Nat),
    Seg w.lh.pv w.lh.nx q rest none → (∀ x ∈ rest, w.lh.live x = true) → rest.Nodup → rest.length < k →
    ∃ hp hn hk, releaseLoop reset k w rest.head? = .ok { w with hp := hp, hn := hn, hk := hk } ∧
      ∀ y, (y ∈ rest → hp y = none ∧ hn y = none ∧ hk y = if reset then 0 else w.hk y) ∧
        (y ∉ rest → hp y = w.hp y ∧ hn y = w.hn y ∧ hk y = w.hk y)
  | [], k + 1, w, q, _, _, _, _ => ⟨w.hp, w.hn, w.hk, rfl, by simp⟩
  | x :: rest, k + 1, w, q, hs, hl, hnd, hk => by
    have hlx := hl x (by simp)
    have hnd' := List.nodup_cons.1 hnd
    have hnx : w.lh.nx x = rest.head? := by have := hs.2.1; simpa using this
    obtain ⟨hp, hn, hk', h1, h2⟩ := releaseLoop_ok reset rest k
      { w with hp := upd w.hp x none, hn := upd w.hn x none, hk := if reset then upd w.hk x 0 else w.hk } (some x) hs.2.2
      (fun y hy => hl y (by simp [hy])) hnd'.2 (by simp only [List.length_cons] at hk; omega)
    refine ⟨hp, hn, hk', ?_, fun y => ⟨fun hy => ?_, fun hy => ?_⟩⟩
    · simp only [List.head?_cons, releaseLoop, getNx, setHp, setHn, hlx, if_true, ok_bind, hnx]
      rw [← h1]
      cases reset <;> rfl
    · by_cases e : y = x
      · obtain ⟨a, b, c⟩ := (h2 y).2 (by rw [e]; exact hnd'.1)
        rw [a, b, c, e]
        cases reset <;> simp
      · obtain ⟨a, b, c⟩ := (h2 y).1 (by simpa [e] using hy)
        rw [a, b, c]
        cases reset <;> simp
    · simp only [List.mem_cons, not_or] at hy
      obtain ⟨a, b, c⟩ := (h2 y).2 hy.2
      rw [a, b, c]
      cases reset <;> simp [upd_other _ _ hy.1]

theorem R.release {hf : List UInt8 → Nat} {w : W α} {s : S α} (r : R hf w s) (reset : Bool) :
    ∃ w', release w reset = .ok w' ∧
      R hf w' { s with seq := [], loose := s.seq ++ s.loose, stale := fun x => s.stale x || decide (x ∈ s.seq) } := by
  obtain ⟨hp, hn, hk, h1, h2⟩ := releaseLoop_ok reset s.seq (w.fresh + 1) w none r.chain.seg r.chain.live r.chain.nodup
    (by have := r.core.length_le; omega)
  refine ⟨_, by unfold OrderedHash.release; rw [r.chain.first, h1]; rfl, ?_⟩
  refine ⟨⟨trivial, rfl, rfl, by simp, List.nodup_nil⟩, rfl, by simp [r.pos], Buckets.empty _ _ _ _, r.keyOk, by simp,
    fun {y} hy => ?_, by simp, fun {y} hy => ?_, ?_, by simp, fun {y} hy => ?_, r.fresh, r.bound, r.val⟩
  · show hk y = 0 ∨ hk y = _
    by_cases h : y ∈ s.seq
    · rw [((h2 y).1 h).2.2]
      cases reset
      · exact Or.inr (r.hkSeq h)
      · exact Or.inl rfl
    · rw [((h2 y).2 h).2.2]
      exact r.hkLoose ((List.mem_append.1 hy).resolve_left h)
  · show w.lh.live y = true ∧ ((s.stale y || decide (y ∈ s.seq)) = false → w.lh.pv y = none) ∧
      ((s.stale y || decide (y ∈ s.seq)) = false → w.lh.nx y = none) ∧ hp y = none ∧ hn y = none
    by_cases h : y ∈ s.seq
    · obtain ⟨a, b, _⟩ := (h2 y).1 h
      simp [h, a, b, r.seq_live h]
    · obtain ⟨a, b, _⟩ := (h2 y).2 h
      obtain ⟨k1, k2, k3, k4, k5⟩ := r.looseOk ((List.mem_append.1 hy).resolve_left h)
      rw [a, b]
      exact ⟨k1, fun e => k2 (by simpa [h] using e), fun e => k3 (by simpa [h] using e), k4, k5⟩
  · exact List.nodup_append.2 ⟨r.chain.nodup, r.looseNd, fun a ha b hb e => r.looseDisj ha (e ▸ hb)⟩
  · exact Or.inr (List.mem_append.2 (r.own hy))

theorem R.construct (hf : List UInt8 → Nat) (dflt : α) {n : Nat} (hn : n ≠ 0) : R hf (construct dflt n) (S.empty dflt) := by
  refine ⟨⟨trivial, rfl, rfl, by simp [S.empty], by simp [S.empty]⟩, rfl, by simp [OrderedHash.construct]; omega, Buckets.empty _ _ _ _,
    ?_, ?_, ?_, ?_, ?_, ?_, ?_, ?_, rfl, ?_, ?_⟩ <;> simp [OrderedHash.construct, S.empty]

end Verif.OrderedHash
