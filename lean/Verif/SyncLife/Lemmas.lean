import Verif.SyncLife.Layout
import Verif.DirList.Props

/-!
# The steps of the model on well-formed memory
-/

namespace Verif.SyncLife
open Spec
open Verif.NamedMem (alignSize)
open Verif.DirList (lt_of_get get_set set_same)

variable {p : Par} {bs : List Blk} {b : Nat} {k : Blk}

theorem getBlk_ok (h : bs[b]? = some k) (ha : k.alive = true) : getBlk bs b = .ok k := by
  unfold getBlk
  rw [h]
  dsimp only
  rw [if_pos ha]

theorem touch_ok (h : bs[b]? = some k) (ha : k.alive = true) {off len : Nat} (hl : off + len ≤ p.usable k) :
    touch p bs b off len = .ok () := by
  unfold touch
  rw [getBlk_ok h ha, ok_bind, if_pos hl]

theorem touchAll_ok (h : bs[b]? = some k) (ha : k.alive = true) : ∀ {qs : List Part},
    (∀ q ∈ qs, q.off + q.len ≤ p.usable k) → touchAll p bs b qs = .ok ()
  | [], _ => rfl
  | q :: qs, hq => by
    unfold touchAll
    rw [touch_ok h ha (hq q List.mem_cons_self), ok_bind]
    exact touchAll_ok h ha (fun x hx => hq x (List.mem_cons_of_mem _ hx))

/-- The offsets of the `pthread` objects. -/
def ptOffs : List Part → List Nat
  | [] => []
  | q :: qs => if q.pt then q.off :: ptOffs qs else ptOffs qs

theorem usable_live (k : Blk) (l : List Nat) : p.usable { k with live := l } = p.usable k := rfl

theorem initParts_private : ∀ {qs : List Part} {bs : List Blk} {k : Blk} {lo hi : Nat}, bs[b]? = some k →
    k.alive = true → k.named = false → Chain lo qs hi → hi ≤ p.usable k → (∀ x ∈ k.live, x < lo) →
    initParts p bs b qs = .ok (bs.set b { k with live := k.live ++ ptOffs qs })
  | [], bs, k, lo, hi, h, ha, hn, hc, hu, hl => by
    unfold initParts ptOffs
    rw [List.append_nil]
    rw [set_same h]
  | q :: qs, bs, k, lo, hi, h, ha, hn, ⟨h1, h2, h3⟩, hu, hl => by
    unfold initParts
    rw [touch_ok h ha (by have := h3.le; omega), ok_bind, getBlk_ok h ha, ok_bind]
    cases hq : q.pt with
    | false =>
      rw [if_neg (fun e => nomatch e.1)]
      rw [initParts_private h ha hn h3 hu (fun x hx => by have := hl x hx; omega)]
      simp [ptOffs, hq]
    | true =>
      have hb := lt_of_get h
      rw [if_pos ⟨rfl, hn⟩, if_neg (fun e => by have := hl _ e; omega)]
      rw [initParts_private (k := { k with live := k.live ++ [q.off] }) (by rw [get_set hb, if_pos rfl]) ha hn h3 hu]
      · rw [List.set_set]
        simp [ptOffs, hq]
      · intro x hx
        rcases List.mem_append.mp hx with hx | hx
        · have := hl x hx
          omega
        · rw [List.mem_singleton] at hx
          omega

theorem initParts_named : ∀ {qs : List Part}, bs[b]? = some k → k.alive = true → k.named = true →
    (∀ q ∈ qs, q.off + q.len ≤ p.usable k) → initParts p bs b qs = .ok bs
  | [], _, _, _, _ => rfl
  | q :: qs, h, ha, hn, hq => by
    unfold initParts
    rw [touch_ok h ha (hq q List.mem_cons_self), ok_bind, getBlk_ok h ha, ok_bind, if_neg]
    · exact initParts_named h ha hn (fun x hx => hq x (List.mem_cons_of_mem _ hx))
    · rw [hn]
      exact fun e => nomatch e.2

theorem freeParts_ok : ∀ {qs : List Part} {bs : List Blk} {k : Blk}, bs[b]? = some k → k.alive = true →
    k.live = ptOffs qs → (∀ q ∈ qs, q.off + q.len ≤ p.usable k) →
    freeParts p bs b qs = .ok (bs.set b { k with live := [] })
  | [], bs, k, h, ha, hl, hq => by
    have e : k = { k with live := [] } := by
      cases k
      simp only [ptOffs] at hl
      simp only [hl]
    unfold freeParts
    rw [set_same (e ▸ h)]
  | q :: qs, bs, k, h, ha, hl, hq => by
    unfold freeParts
    cases hp : q.pt with
    | false =>
      rw [if_neg (fun e => nomatch e)]
      exact freeParts_ok h ha (by rw [hl, ptOffs, if_neg (by simp [hp])])
        (fun x hx => hq x (List.mem_cons_of_mem _ hx))
    | true =>
      have hb := lt_of_get h
      rw [ptOffs, if_pos hp] at hl
      rw [if_pos rfl, touch_ok h ha (hq q List.mem_cons_self), ok_bind, getBlk_ok h ha, ok_bind,
        if_pos (by rw [hl]; exact List.mem_cons_self)]
      rw [freeParts_ok (k := { k with live := k.live.erase q.off }) (by rw [get_set hb, if_pos rfl]) ha
        (by dsimp only; rw [hl, List.erase_cons_head]) (fun x hx => hq x (List.mem_cons_of_mem _ hx))]
      rw [List.set_set]

/-- The block of a created object. -/
structure HasBlk (p : Par) (o : Obj) (b : Nat) (k : Blk) (size : Nat) : Prop where
  alive : k.alive = true
  named : o.cls ≠ .mem → k.named = o.named
  wrap : o.cls ≠ .mem → o.wrap = some (b, if o.named then p.start else 0)
  len : o.cls ≠ .mem → k.len = p.A (p.objSize 0 o.cls + if o.named then p.start else 0)
  live : k.live = if k.named then [] else ptOffs (p.parts 0 o.cls)
  isNamed : o.cls = .mem → k.named = true
  sizeEq : o.cls = .mem → o.size = size
  data : o.cls = .mem → o.data = some (b, p.start)
  lenMem : o.cls = .mem → k.len = alignSize p.al ((size + p.start) % 18446744073709551616) ∧ 0 < k.len

/-- An object and its memory agree with its state. -/
def ObjOk (p : Par) (bs : List Blk) (o : Obj) : St → Prop
  | .gone => False
  | .closed c => o.cls = c ∧ o.mem = none ∧ (c = .mem → o.data = none)
  | .opened c size => o.cls = c ∧ ∃ b k, o.mem = some b ∧ bs[b]? = some k ∧ HasBlk p o b k size

theorem start_align (f : Facts p) : p.start ≤ 4294967296 := f.startSmall

theorem parts_fit (f : Facts p) {o : Obj} {size : Nat} (hc : o.cls ≠ .mem) (h : HasBlk p o b k size) :
    ∀ q ∈ p.parts (if o.named then p.start else 0) o.cls, q.off + q.len ≤ p.usable k := by
  intro q hq
  have h1 := (parts_chain f (if o.named then p.start else 0) o.cls hc).bounds q hq
  have h2 := usable_ge f.page k
  have h3 := h.len hc
  have h4 := objSize_small f o.cls hc
  have h5 := f.startSmall
  have h6 := f.alSmall
  have h7 : p.objSize 0 o.cls + (if o.named then p.start else 0) ≤
      p.A (p.objSize 0 o.cls + if o.named then p.start else 0) := A_ge f.al (by split <;> omega)
  omega

theorem header_fit (f : Facts p) (hn : k.named = true) (hl : 0 < k.len) :
    ∀ q ∈ p.header, q.off + q.len ≤ p.usable k := by
  intro q hq
  have h1 := (header_chain f).bounds q hq
  have h2 := usable_page f.page hn hl
  have h3 := f.start
  omega

theorem unmap_ok (f : Facts p) (hd : p.al ∣ p.page) (h : bs[b]? = some k) (ha : k.alive = true) (hn : k.named = true)
    {size : Nat} (hl : 0 < k.len) (hk : k.len = alignSize p.al ((size + p.start) % 18446744073709551616)) :
    unmap p bs b size = .ok (bs.set b { k with alive := false }) := by
  unfold unmap
  rw [touchAll_ok h ha (header_fit f hn hl), ok_bind, getBlk_ok h ha, ok_bind, if_pos hn]
  dsimp only
  rw [if_pos]
  rw [hk, pages_align f.page f.al hd, Nat.add_comm]

/-- The block as it is left behind. -/
def Blk.done (k : Blk) : Blk := { k with alive := false, live := [] }

theorem done_named (h : k.live = []) : ({ k with alive := false } : Blk) = k.done := by
  unfold Blk.done
  rw [← h]

theorem release_ok (f : Facts p) (hd : p.al ∣ p.page) {o : Obj} {c : Cls} {size : Nat} (h : ObjOk p bs o (.opened c size)) :
    ∃ b k, o.mem = some b ∧ bs[b]? = some k ∧ k.alive = true ∧ release p bs o = .ok (bs.set b k.done) := by
  obtain ⟨hc, b, k, h1, h2, h3⟩ := h
  refine ⟨b, k, h1, h2, h3.alive, ?_⟩
  unfold release
  rw [h1]
  dsimp only
  by_cases hm : o.cls = .mem
  · rw [if_pos hm, unmap_ok f hd h2 h3.alive (h3.isNamed hm) (h3.lenMem hm).2
      (by rw [(h3.lenMem hm).1, h3.sizeEq hm]), done_named]
    rw [h3.live, h3.isNamed hm, if_pos rfl]
  · rw [if_neg hm]
    cases hn : o.named with
    | true =>
      have hkn : k.named = true := (h3.named hm).trans hn
      have h4 := objSize_small f o.cls hm
      have h5 := f.startSmall
      have h6 := f.alSmall
      have h7 := h3.len hm
      rw [hn, if_pos rfl, A_eq f.al (by omega)] at h7
      have h8 : p.objSize 0 o.cls + p.start < 18446744073709551616 := by omega
      rw [if_pos rfl, unmap_ok f hd h2 h3.alive hkn]
      · rw [done_named]
        rw [h3.live, hkn, if_pos rfl]
      · have := align_ge p.al (p.objSize 0 o.cls + p.start)
        have h9 : 0 < p.start := by have := f.o1; unfold Par.start; omega
        omega
      · rw [h7, Nat.mod_eq_of_lt h8]
    | false =>
      have hkn : k.named = false := (h3.named hm).trans hn
      have hw := h3.wrap hm
      have hf := parts_fit f hm h3
      rw [hn, if_neg (fun e => nomatch e)] at hw hf
      rw [if_neg (fun e => nomatch e), hw]
      dsimp only
      have hl := h3.live
      rw [hkn, if_neg (fun e => nomatch e)] at hl
      rw [freeParts_ok h2 h3.alive hl hf, ok_bind]
      unfold delete
      rw [getBlk_ok (k := { k with live := [] }) (by rw [get_set (lt_of_get h2), if_pos rfl]) h3.alive, ok_bind]
      dsimp only
      rw [hkn, if_neg (fun e => nomatch e), List.set_set]
      unfold Blk.done
      rw [hkn]

theorem release_closed {o : Obj} {c : Cls} (h : ObjOk p bs o (.closed c)) : release p bs o = .ok bs := by
  unfold release
  rw [h.2.1]

theorem get_append_self {α : Type} (l : List α) (x : α) : (l ++ [x])[l.length]? = some x := by simp

theorem createSync_ok (f : Facts p) (bs : List Blk) (o : Obj) (hc : o.cls ≠ .mem) (name : Option Found)
    (hn : name ≠ some .no) : ∃ k o', createSync p bs o name = .ok (true, bs ++ [k], o') ∧ o'.cls = o.cls ∧
      o'.mem = some bs.length ∧ HasBlk p o' bs.length k 0 ∧ o'.named = name.isSome := by
  have h4 := objSize_small f o.cls hc
  have h5 := f.startSmall
  have h6 := f.alSmall
  have ha := f.al
  unfold createSync
  dsimp only
  cases name with
  | none =>
    have hlen : p.A (p.objSize 0 o.cls % 18446744073709551616) = p.A (p.objSize 0 o.cls) := by
      rw [Nat.mod_eq_of_lt (by omega)]
    have hge : p.objSize 0 o.cls ≤ p.A (p.objSize 0 o.cls) := A_ge ha (by omega)
    unfold initMem
    dsimp only
    rw [ok_bind]
    dsimp only
    rw [if_pos rfl, initParts_private (k := ⟨false, _, true, []⟩) (get_append_self _ _) rfl rfl
      (parts_chain f 0 o.cls hc) (by unfold Par.usable; dsimp only; rw [if_neg (fun e => nomatch e), hlen]; omega)
      (fun x hx => nomatch hx), ok_bind, if_neg (fun e => nomatch e)]
    refine ⟨⟨false, p.A (p.objSize 0 o.cls % 18446744073709551616), true, ptOffs (p.parts 0 o.cls)⟩,
      { o with mem := some bs.length, named := false, wrap := some (bs.length, 0) }, ?_, rfl, rfl, ?_⟩
    · rw [List.set_append_right _ _ (Nat.le_refl _)]
      simp
    · exact ⟨⟨rfl, fun _ => rfl, fun _ => rfl, fun _ => hlen, rfl, fun e => absurd e hc, fun e => absurd e hc,
        fun e => absurd e hc, fun e => absurd e hc⟩, rfl⟩
  | some g =>
    have hsm : p.objSize 0 o.cls + p.start < 18446744073709551616 := by omega
    have hge : p.objSize 0 o.cls + p.start ≤ p.A (p.objSize 0 o.cls + p.start) := A_ge ha (by omega)
    have hpos : 0 < p.start := by have := f.o1; unfold Par.start; omega
    have hi : initMem p bs (some g) (p.objSize 0 o.cls) = .ok
        (bs ++ [⟨true, p.A (p.objSize 0 o.cls + p.start), true, []⟩], some (bs.length, p.start, decide (g = .new))) := by
      unfold initMem
      cases g with
      | no => exact absurd rfl hn
      | new | used =>
        dsimp only
        rw [Nat.mod_eq_of_lt hsm, if_neg (by omega),
          touchAll_ok (k := ⟨true, _, true, []⟩) (get_append_self _ _) rfl (header_fit f rfl (by dsimp only; omega)), ok_bind]
    rw [hi, ok_bind]
    dsimp only
    have hb : HasBlk p { o with mem := some bs.length, named := true, wrap := some (bs.length, p.start) } bs.length
        ⟨true, p.A (p.objSize 0 o.cls + p.start), true, []⟩ 0 := by
      refine ⟨rfl, fun _ => rfl, fun _ => rfl, fun _ => rfl, rfl, fun e => absurd e hc, fun e => absurd e hc,
        fun e => absurd e hc, fun e => absurd e hc⟩
    refine ⟨_, { o with mem := some bs.length, named := true, wrap := some (bs.length, p.start) }, ?_, rfl, rfl, hb,
      rfl⟩
    have hfit := parts_fit f (by exact hc) hb
    dsimp only at hfit
    rw [if_pos rfl] at hfit
    split
    · rw [initParts_named (get_append_self _ _) rfl rfl hfit, ok_bind, if_pos (show (some g).isSome = true from rfl)]
      unfold ready
      rw [touch_ok (get_append_self _ _) rfl (header_fit f rfl (by dsimp only; omega) ⟨p.A 1, p.msz, false⟩
        (by unfold Par.header; simp)), ok_bind]
      rfl
    · rfl

theorem createSync_no (bs : List Blk) (o : Obj) : ∃ o', createSync p bs o (some .no) = .ok (false, bs, o') ∧
    o'.cls = o.cls ∧ o'.mem = none := by
  unfold createSync initMem
  exact ⟨_, rfl, rfl, rfl⟩

theorem total_eq (h : Platform p) (n : Nat) (hn : n < 18446744073709551616) :
    (0 < n ∧ n + p.al ≤ 18446744073709551616 → p.A n = alignSize p.al n ∧ 0 < p.A n) ∧
    (¬ (0 < n ∧ n + p.al ≤ 18446744073709551616) → p.A n = 0) := by
  have h1 := align_ge p.al n
  have h2 := align_lt h.al n
  refine ⟨fun ⟨h3, h4⟩ => ?_, fun h3 => ?_⟩
  · rw [A_eq h.al h4]
    exact ⟨rfl, by omega⟩
  · unfold Par.A
    by_cases h4 : n = 0
    · subst h4
      unfold alignSize
      simp
    · have h5 : alignSize p.al n ≤ 18446744073709551616 := align_le_of_dvd h.al h.alWord (Nat.le_of_lt hn)
      have h6 : ¬ alignSize p.al n < 18446744073709551616 := by
        intro h6
        obtain ⟨x, hx⟩ := align_dvd h.al n
        obtain ⟨y, hy⟩ := h.alWord
        rw [hx, hy] at h6
        have := Nat.lt_of_mul_lt_mul_left h6
        have h7 : p.al * x + p.al ≤ p.al * y := by
          rw [← Nat.mul_succ]
          exact Nat.mul_le_mul_left _ this
        omega
      have h7 : alignSize p.al n = 18446744073709551616 := by omega
      rw [h7]

theorem createMem_ok (h : Platform p) (bs : List Blk) (o : Obj) (hc : o.cls = .mem) (g : Found) (size : Nat) :
    (g ≠ .no → Mappable p size = true → ∃ k o', createMem p bs o g size = .ok (true, bs ++ [k], o') ∧ o'.cls = .mem ∧
      o'.mem = some bs.length ∧ HasBlk p o' bs.length k size ∧ o'.first = (decide (g = .new) || o.first)) ∧
    (g = .no ∨ Mappable p size = false → ∃ o', createMem p bs o g size = .ok (false, bs, o') ∧ o'.cls = .mem ∧
      o'.mem = none ∧ o'.data = none) := by
  have f := facts h
  have ht := total_eq h ((size + p.start) % 18446744073709551616) (Nat.mod_lt _ (by omega))
  refine ⟨fun hg hm => ?_, fun hg => ?_⟩
  · unfold Mappable at hm
    have hm := ht.1 (of_decide_eq_true hm)
    have hi : initMem p bs (some g) size = .ok (bs ++ [⟨true, p.A ((size + p.start) % 18446744073709551616), true, []⟩],
        some (bs.length, p.start, decide (g = .new))) := by
      unfold initMem
      cases g with
      | no => exact absurd rfl hg
      | new | used =>
        dsimp only
        rw [if_neg (by omega), touchAll_ok (k := ⟨true, _, true, []⟩) (get_append_self _ _) rfl
          (header_fit f rfl (by dsimp only; omega)), ok_bind]
    unfold createMem
    dsimp only
    rw [hi, ok_bind]
    dsimp only
    by_cases hnew : decide (g = .new) = true
    · rw [if_pos hnew]
      unfold ready
      rw [touch_ok (get_append_self _ _) rfl (header_fit f rfl (by dsimp only; omega) ⟨p.A 1, p.msz, false⟩
        (by unfold Par.header; simp)), ok_bind]
      exact ⟨_, _, rfl, hc, rfl, ⟨rfl, fun e => absurd hc e, fun e => absurd hc e, fun e => absurd hc e, rfl, fun _ => rfl,
        fun _ => rfl, fun _ => rfl, fun _ => hm⟩, by dsimp only; rw [hnew, Bool.true_or]⟩
    · rw [if_neg hnew]
      exact ⟨_, _, rfl, hc, rfl, ⟨rfl, fun e => absurd hc e, fun e => absurd hc e, fun e => absurd hc e, rfl, fun _ => rfl,
        fun _ => rfl, fun _ => rfl, fun _ => hm⟩, by dsimp only; rw [Bool.eq_false_iff.mpr hnew, Bool.false_or]⟩
  · have hi : initMem p bs (some g) size = .ok (bs, none) := by
      unfold initMem
      cases g with
      | no => rfl
      | new | used =>
        have hm := hg.resolve_left (fun e => nomatch e)
        unfold Mappable at hm
        dsimp only
        rw [if_pos (ht.2 (of_decide_eq_false hm))]
    unfold createMem
    dsimp only
    rw [hi]
    exact ⟨_, rfl, hc, rfl, rfl⟩

end Verif.SyncLife
