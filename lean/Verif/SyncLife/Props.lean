import Verif.SyncLife.Owned

/-!
# Property theorems: the life of `Semaphore`, `Event`, `ReadWriteLock` and `SharedMem` (C77, C78, C80)
-/

namespace Verif.SyncLife
open Spec
open Verif.NamedMem (alignSize)
open Verif.DirList (lt_of_get get_set set_same)

/-- The blocks of the objects. -/
def memOf (o : Option Obj) : Option Nat := o.bind Obj.mem

def mems (os : List (Option Obj)) : List (Option Nat) := os.map memOf

theorem mems_get (os : List (Option Obj)) (i : Nat) : (mems os)[i]? = os[i]?.map memOf := List.getElem?_map

theorem mems_set (os : List (Option Obj)) (i : Nat) (x : Option Obj) : mems (os.set i x) = (mems os).set i (memOf x) :=
  List.map_set

/-- The object at a place agrees with its state. -/
def At (p : Par) (bs : List Blk) (x : Option Obj) (st : St) : Prop :=
  match x with
  | none => st = .gone
  | some o => ObjOk p bs o st

structure Rel (p : Par) (w : W) (a : A) : Prop where
  owned : Owned w.blks (mems w.objs)
  len : w.objs.length = a.length
  at' : ∀ (i : Nat) (x : Option Obj) (st : St), w.objs[i]? = some x → a[i]? = some st → At p w.blks x st

theorem rel_empty (p : Par) : Rel p ⟨[], []⟩ [] := ⟨Owned.empty, rfl, by simp⟩

theorem objOk_frame {p : Par} {bs bs' : List Blk} {o : Obj} {st : St} (h : ObjOk p bs o st)
    (hb : ∀ b, o.mem = some b → bs'[b]? = bs[b]?) : ObjOk p bs' o st := by
  cases st with
  | gone => exact h
  | closed c => exact h
  | opened c size =>
    obtain ⟨h1, b, k, h2, h3, h4⟩ := h
    exact ⟨h1, b, k, h2, by rw [hb b h2]; exact h3, h4⟩

/-- One object and its block change, the others stay. -/
theorem Rel.update {p : Par} {bs bs' : List Blk} {os : List (Option Obj)} {a : A} (r : Rel p ⟨bs, os⟩ a) (i : Nat)
    {x : Option Obj} {st : St} (ho : Owned bs' ((mems os).set i (memOf x)))
    (hx : At p bs' x st) (hb : ∀ (j : Nat) (o : Obj) (b : Nat), j ≠ i → os[j]? = some (some o) → o.mem = some b →
      bs'[b]? = bs[b]?) : Rel p ⟨bs', os.set i x⟩ (a.set i st) := by
  refine ⟨by rw [mems_set]; exact ho, by simp only [List.length_set]; exact r.len, fun j y s hj hs => ?_⟩
  by_cases hji : j = i
  · subst hji
    have h1 : j < os.length := by
      have := lt_of_get hj
      simpa using this
    have h2 : j < a.length := by
      have := lt_of_get hs
      simpa using this
    dsimp only at hj
    rw [get_set h1, if_pos rfl] at hj
    rw [get_set h2, if_pos rfl] at hs
    cases hj
    cases hs
    exact hx
  · dsimp only at hj
    rw [List.getElem?_set_ne (Ne.symm hji)] at hj hs
    have := r.at' j y s hj hs
    cases y with
    | none => exact this
    | some o => exact objOk_frame this (fun b hm => hb j o b hji hj hm)

theorem there {p : Par} {w : W} {a : A} {i : Nat} (r : Rel p w a) (h : There a i) :
    ∃ o c, w.objs[i]? = some (some o) ∧ o.cls = c ∧ ((a[i]? = some (.closed c) ∧ ObjOk p w.blks o (.closed c)) ∨
      ∃ n, a[i]? = some (.opened c n) ∧ ObjOk p w.blks o (.opened c n)) := by
  have key : ∀ st, a[i]? = some st → st ≠ .gone → ∃ o, w.objs[i]? = some (some o) ∧ ObjOk p w.blks o st := by
    intro st hst hg
    cases hx : w.objs[i]? with
    | none =>
      rw [List.getElem?_eq_none_iff, r.len] at hx
      have := lt_of_get hst
      omega
    | some x =>
      have := r.at' i x st hx hst
      cases x with
      | none => exact absurd this hg
      | some o => exact ⟨o, rfl, this⟩
  rcases h with ⟨c, hc⟩ | ⟨c, n, hc⟩
  · obtain ⟨o, h1, h2⟩ := key _ hc (fun e => nomatch e)
    exact ⟨o, c, h1, h2.1, Or.inl ⟨hc, h2⟩⟩
  · obtain ⟨o, h1, h2⟩ := key _ hc (fun e => nomatch e)
    exact ⟨o, c, h1, h2.1, Or.inr ⟨n, hc, h2⟩⟩

theorem getObj_ok {w : W} {i : Nat} {o : Obj} (h : w.objs[i]? = some (some o)) : getObj w i = .ok o := by
  unfold getObj
  rw [h]

/-- After the release nobody has the object's block. -/
theorem released {p : Par} {w : W} {a : A} {i : Nat} (hp : Platform p) (r : Rel p w a) (h : There a i) {o : Obj}
    (ho : w.objs[i]? = some (some o)) :
    ∃ bs, release p w.blks o = .ok bs ∧ Owned bs ((mems w.objs).set i none) ∧
      ∀ (j : Nat) (o' : Obj) (b : Nat), j ≠ i → w.objs[j]? = some (some o') → o'.mem = some b → bs[b]? = w.blks[b]? := by
  obtain ⟨o', c, h1, -, h2⟩ := there r h
  rw [ho] at h1
  cases h1
  have hm : ∀ x, o.mem = x → (mems w.objs)[i]? = some x := by
    rintro x rfl
    rw [mems_get, ho]
    rfl
  rcases h2 with ⟨-, h2⟩ | ⟨n, -, h2⟩
  · refine ⟨w.blks, release_closed h2, ?_, fun _ _ _ _ _ _ => rfl⟩
    rw [set_same (hm none h2.2.1)]
    exact r.owned
  · obtain ⟨b, k, g1, g2, g3, g4⟩ := release_ok (facts hp) hp.alPage h2
    refine ⟨_, g4, r.owned.drop (hm _ g1) g2, fun j o' b' hj hoj hb' => ?_⟩
    rw [get_set (lt_of_get g2), if_neg]
    rintro rfl
    refine hj (r.owned.own j i b' ?_ (hm _ g1))
    rw [mems_get, hoj]
    show some o'.mem = _
    rw [hb']

theorem create_ok {p : Par} {w : W} {a : A} (hp : Platform p) (i : Nat) (name : Option Found) (size : Nat)
    (r : Rel p w a) (hl : There a i) :
    ∃ w', create p w i name size = .ok ((does p a (.create i name size)).1, w') ∧
      Rel p w' (does p a (.create i name size)).2 := by
  obtain ⟨o, c, h1, h2, h3⟩ := there r hl
  obtain ⟨bs, g1, g2, g3⟩ := released hp r hl h1
  have f := facts hp
  obtain ⟨st, hst, hok, hd⟩ : ∃ st, a[i]? = some st ∧ ObjOk p w.blks o st ∧ does p a (.create i name size) =
      ((created p st c name size).1, a.set i (created p st c name size).2) := by
    rcases h3 with ⟨h3, h4⟩ | ⟨n, h3, h4⟩
    · exact ⟨_, h3, h4, by unfold does; dsimp only; rw [h3]⟩
    · exact ⟨_, h3, h4, by unfold does; dsimp only; rw [h3]⟩
  have hil : i < w.objs.length := lt_of_get h1
  have hnone : ((mems w.objs).set i none)[i]? = some none := by
    rw [get_set (by unfold mems; simpa using hil), if_pos rfl]
  have hlt : ∀ (j : Nat) (o' : Obj) (b : Nat), w.objs[j]? = some (some o') → o'.mem = some b → b < w.blks.length := by
    intro j o' b hj hb
    obtain ⟨k, hk, -⟩ := r.owned.ok j b (by rw [mems_get, hj]; show some o'.mem = _; rw [hb])
    exact lt_of_get hk
  -- success: a new block
  have yes : ∀ (k : Blk) (o' : Obj) (n : Nat), o'.cls = c → o'.mem = some bs.length → HasBlk p o' bs.length k n →
      Rel p ⟨bs ++ [k], w.objs.set i (some o')⟩ (a.set i (.opened c n)) := by
    intro k o' n e1 e2 e3
    refine Rel.update (bs := w.blks) r i ?_ ⟨e1, bs.length, k, e2, get_append_self _ _, e3⟩ ?_
    · have := g2.add hnone e3.alive
      rw [List.set_set] at this
      show Owned _ (List.set _ _ o'.mem)
      rw [e2]
      exact this
    · intro j oj b hj hoj hb
      have := g3 j oj b hj hoj hb
      rw [← this]
      apply List.getElem?_append_left
      have hb2 := hlt j oj b hoj hb
      rw [List.getElem?_eq_getElem hb2] at this
      exact lt_of_get this
  -- failure: no block
  have no : ∀ (o' : Obj), o'.cls = c → o'.mem = none → (c = .mem → o'.data = none) →
      Rel p ⟨bs, w.objs.set i (some o')⟩ (a.set i (.closed c)) := by
    intro o' e1 e2 e3
    refine Rel.update (bs := w.blks) r i ?_ ⟨e1, e2, e3⟩ g3
    show Owned _ (List.set _ _ o'.mem)
    rw [e2]
    exact g2
  rw [hd]
  unfold create
  rw [getObj_ok h1, ok_bind]
  by_cases hc : o.cls = .mem
  · have hc' : c = .mem := h2 ▸ hc
    rw [if_pos hc]
    cases name with
    | none =>
      refine ⟨w, ?_, ?_⟩
      · unfold created
        dsimp only
        rw [if_pos hc']
      · unfold created
        dsimp only
        rw [if_pos hc', set_same hst]
        exact r
    | some g =>
      dsimp only
      rw [g1, ok_bind]
      have hcm := createMem_ok hp bs o hc g size
      by_cases hy : g ≠ .no ∧ Mappable p size = true
      · obtain ⟨k, o', e1, e2, e3, e4, -⟩ := hcm.1 hy.1 hy.2
        rw [e1, ok_bind]
        have hcr : created p st c (some g) size = (true, .opened c size) := by
          unfold created
          cases g with
          | no => exact absurd rfl hy.1
          | new | used => dsimp only; rw [if_pos hc', if_pos hy.2]
        rw [hcr]
        exact ⟨_, rfl, yes k o' size (e2.trans hc'.symm) e3 e4⟩
      · have hy' : g = .no ∨ Mappable p size = false := by
          by_cases hg : g = .no
          · exact Or.inl hg
          · right
            cases hm : Mappable p size with
            | false => rfl
            | true => exact absurd ⟨hg, hm⟩ hy
        obtain ⟨o', e1, e2, e3, e4⟩ := hcm.2 hy'
        rw [e1, ok_bind]
        have hcr : created p st c (some g) size = (false, .closed c) := by
          unfold created
          cases g with
          | no => rfl
          | new | used =>
            dsimp only
            rw [if_pos hc', if_neg]
            rw [hy'.resolve_left (fun e => nomatch e)]
            exact fun e => nomatch e
        rw [hcr]
        exact ⟨_, rfl, no o' (e2.trans hc'.symm) e3 (fun _ => e4)⟩
  · have hc' : c ≠ .mem := h2 ▸ hc
    rw [if_neg hc, g1, ok_bind]
    by_cases hy : name = some .no
    · subst hy
      obtain ⟨o', e1, e2, e3⟩ := createSync_no (p := p) bs o
      rw [e1, ok_bind]
      exact ⟨_, rfl, no o' (e2.trans h2) e3 (fun e => absurd e hc')⟩
    · obtain ⟨k, o', e1, e2, e3, e4, -⟩ := createSync_ok f bs o hc name hy
      rw [e1, ok_bind]
      have hcr : created p st c name size = (true, .opened c 0) := by
        unfold created
        cases name with
        | none => dsimp only; rw [if_neg hc']
        | some g =>
          cases g with
          | no => exact absurd rfl hy
          | new | used => dsimp only; rw [if_neg hc']
      rw [hcr]
      exact ⟨_, rfl, yes k o' 0 (e2.trans h2) e3 e4⟩

theorem step_ok {p : Par} {w : W} {a : A} (hp : Platform p) (o : Op) (r : Rel p w a) (hl : Legal p a o) :
    ∃ w', step p w o = .ok ((does p a o).1, w') ∧ Rel p w' (does p a o).2 := by
  have f := facts hp
  cases o with
  | construct c =>
    refine ⟨_, rfl, ?_, ?_, ?_⟩
    · show Owned w.blks (mems (w.objs ++ [_]))
      unfold mems
      rw [List.map_append]
      exact r.owned.more
    · show (w.objs ++ [_]).length = (a ++ [_]).length
      simp [r.len]
    · intro i x st hx hst
      change (w.objs ++ [_])[i]? = some x at hx
      change (a ++ [_])[i]? = some st at hst
      rcases Nat.lt_trichotomy i w.objs.length with hi | hi | hi
      · rw [List.getElem?_append_left hi] at hx
        rw [List.getElem?_append_left (r.len ▸ hi)] at hst
        exact r.at' i x st hx hst
      · rw [hi, get_append_self] at hx
        rw [hi, r.len, get_append_self] at hst
        cases hx
        cases hst
        exact ⟨rfl, rfl, fun _ => rfl⟩
      · rw [List.getElem?_eq_none (by simp; omega)] at hx
        exact nomatch hx
  | create i name size => exact create_ok hp i name size r hl
  | use i b =>
    have ht : There a i := by
      rcases hl with ⟨c, -, h⟩ | ⟨c, n, -, h⟩
      · exact Or.inl ⟨c, h⟩
      · exact Or.inr ⟨c, n, h⟩
    obtain ⟨o, c, h1, h2, h3⟩ := there r ht
    have hc : o.cls ≠ .mem := by
      rw [h2]
      rcases hl with ⟨c', hc, h⟩ | ⟨c', n, hc, h⟩ <;> rcases h3 with ⟨h3, -⟩ | ⟨m, h3, -⟩ <;> rw [h] at h3 <;> cases h3 <;>
        exact hc
    unfold step use does
    dsimp only
    rw [getObj_ok h1, ok_bind]
    rcases h3 with ⟨h3, h4⟩ | ⟨n, h3, -, b', k, h5, h6, h7⟩
    · rw [h4.2.1, h3]
      exact ⟨w, rfl, r⟩
    · rw [h5, h3]
      dsimp only
      rw [h7.wrap hc]
      dsimp only
      rw [touchAll_ok h6 h7.alive (parts_fit f hc h7)]
      exact ⟨w, rfl, r⟩
  | access i off n =>
    obtain ⟨size, h1, h2, h3⟩ := hl
    obtain ⟨o, c, g1, g2, g3⟩ := there r (Or.inr ⟨_, _, h1⟩)
    rw [h1] at g3
    rcases g3 with ⟨g3, -⟩ | ⟨m, g3, g4, b, k, g5, g6, g7⟩
    · exact nomatch g3
    · cases g3
      unfold step access does
      dsimp only
      rw [getObj_ok g1, ok_bind, g7.data g4]
      dsimp only
      have hlen := (g7.lenMem g4).1
      have ha := f.al
      have hge := align_ge p.al ((size + p.start) % 18446744073709551616)
      have hu := usable_ge f.page k
      rw [Nat.mod_eq_of_lt (by omega)] at hlen hge
      rw [touch_ok g6 g7.alive (by omega)]
      exact ⟨w, rfl, r⟩
  | destroy i =>
    obtain ⟨o, c, h1, h2, h3⟩ := there r hl
    obtain ⟨bs, g1, g2, g3⟩ := released hp r hl h1
    unfold step destroy does
    dsimp only
    rw [getObj_ok h1, ok_bind, g1, ok_bind]
    exact ⟨_, rfl, Rel.update (bs := w.blks) r i g2 rfl g3⟩

theorem run_ok {p : Par} (hp : Platform p) : ∀ (os : List Op) {w : W} {a : A}, Rel p w a → LegalAll p a os →
    ∃ w', run p w os = .ok ((doesAll p a os).1, w') ∧ Rel p w' (doesAll p a os).2
  | [], w, a, r, _ => ⟨w, rfl, r⟩
  | o :: os, w, a, r, hl => by
    obtain ⟨w1, h1, h2⟩ := step_ok hp o r hl.1
    obtain ⟨w2, h3, h4⟩ := run_ok hp os h2 hl.2
    refine ⟨w2, ?_, h4⟩
    unfold run
    rw [h1, ok_bind]
    dsimp only
    rw [h3]
    rfl

/-- C77: every history of any number of objects does what `Spec.does` says, without any undefined behaviour: memory is
never given back twice, never in the wrong way, and never used afterwards.  Afterwards every live block is that of
exactly one created object, every created object has one, and in memory that was given back no `pthread` object is
left. -/
theorem life {p : Par} (hp : Platform p) (os : List Op) (hl : LegalAll p [] os) :
    ∃ w, run p ⟨[], []⟩ os = .ok ((doesAll p [] os).1, w) ∧
      (∀ (b : Nat) (k : Blk), w.blks[b]? = some k → k.alive = true → ∃ (i : Nat) (o : Obj) (c : Cls) (n : Nat),
        w.objs[i]? = some (some o) ∧ o.mem = some b ∧ (doesAll p [] os).2[i]? = some (.opened c n) ∧
        ∀ (j : Nat) (o' : Obj), w.objs[j]? = some (some o') → o'.mem = some b → j = i) ∧
      (∀ (i : Nat) (c : Cls) (n : Nat), (doesAll p [] os).2[i]? = some (.opened c n) → ∃ (o : Obj) (b : Nat) (k : Blk),
        w.objs[i]? = some (some o) ∧ o.mem = some b ∧ w.blks[b]? = some k ∧ k.alive = true) ∧
      ∀ (b : Nat) (k : Blk), w.blks[b]? = some k → k.alive = false → k.live = [] := by
  obtain ⟨w, h1, h2⟩ := run_ok hp os (rel_empty p) hl
  refine ⟨w, h1, fun b k hb hk => ?_, fun i c n hi => ?_, h2.owned.clean⟩
  · obtain ⟨i, hi⟩ := h2.owned.used b k hb hk
    rw [mems_get] at hi
    cases hx : w.objs[i]? with
    | none => rw [hx] at hi; cases hi
    | some x =>
      cases x with
      | none => rw [hx] at hi; cases hi
      | some o =>
        rw [hx] at hi
        have hm : o.mem = some b := Option.some.inj hi
        have hil : i < (doesAll p [] os).2.length := by rw [← h2.len]; exact lt_of_get hx
        have hat := h2.at' i (some o) _ hx (List.getElem?_eq_getElem hil)
        cases hs : (doesAll p [] os).2[i] with
        | gone => rw [hs] at hat; exact False.elim hat
        | closed c => rw [hs] at hat; rw [hat.2.1] at hm; cases hm
        | opened c n =>
          refine ⟨i, o, c, n, hx, hm, by rw [List.getElem?_eq_getElem hil, hs], fun j o' hj hj' => ?_⟩
          refine h2.owned.own j i b ?_ ?_
          · rw [mems_get, hj]
            exact congrArg some hj'
          · rw [mems_get, hx]
            exact congrArg some hm
  · obtain ⟨o, c', g1, g2, g3⟩ := there h2 (Or.inr ⟨c, n, hi⟩)
    rw [hi] at g3
    rcases g3 with ⟨g3, -⟩ | ⟨m, g3, -, b, k, g4, g5, g6⟩
    · exact nomatch g3
    · exact ⟨o, b, k, g1, g4, g5, g6.alive⟩

/-- C77: when every object is gone or not created, all memory has been given back. -/
theorem all_released {p : Par} (hp : Platform p) (os : List Op) (hl : LegalAll p [] os)
    (hg : ∀ (i : Nat) (c : Cls) (n : Nat), (doesAll p [] os).2[i]? ≠ some (.opened c n)) :
    ∃ w, run p ⟨[], []⟩ os = .ok ((doesAll p [] os).1, w) ∧
      ∀ (b : Nat) (k : Blk), w.blks[b]? = some k → k.alive = false ∧ k.live = [] := by
  obtain ⟨w, h1, h2, -, h3⟩ := life hp os hl
  refine ⟨w, h1, fun b k hb => ?_⟩
  cases ha : k.alive with
  | false => exact ⟨rfl, h3 b k hb ha⟩
  | true =>
    obtain ⟨i, o, c, n, -, -, h, -⟩ := h2 b k hb ha
    exact absurd h (hg i c n)

/-! ## `SharedMem` -/

/-- C78 (partial): after any history, `Create` of an object that never made a shared memory itself: if it returns true,
`GetSize()` is the requested size, `RawData()` leads to at least that many bytes (see `Legal` for the accesses in
`life`) and `First()` says whether the memory is new; if it returns false on a name, `RawData()` is NULL.  Missing: the
object was first before (`first_stale`), `GetSize()` after a failure (`size_stale`), sizes near 2^64
(`size_wraps`). -/
theorem mem_create_partial {p : Par} (hp : Platform p) (os : List Op) (hl : LegalAll p [] os) (i size : Nat) (g : Found)
    (hm : (doesAll p [] os).2[i]? = some (.closed .mem) ∨ ∃ n, (doesAll p [] os).2[i]? = some (.opened .mem n)) :
    ∃ w o, run p ⟨[], []⟩ os = .ok ((doesAll p [] os).1, w) ∧ w.objs[i]? = some (some o) ∧
      ∃ r w' o', create p w i (some g) size = .ok (r, w') ∧ w'.objs[i]? = some (some o') ∧
        (r = true → o'.size = size ∧ (o.first = false → o'.first = decide (g = .new)) ∧
          (size + p.start + p.al ≤ 18446744073709551616 → ∃ b pos k, o'.data = some (b, pos) ∧ w'.blks[b]? = some k ∧
            k.alive = true ∧ pos + size ≤ p.usable k)) ∧
        (r = false → o'.data = none) := by
  obtain ⟨w, h1, h2⟩ := run_ok hp os (rel_empty p) hl
  have ht : There (doesAll p [] os).2 i := hm.imp (fun h => ⟨_, h⟩) (fun ⟨n, h⟩ => ⟨_, n, h⟩)
  obtain ⟨o, c, g1, g2, g3⟩ := there h2 ht
  have hc : o.cls = .mem := by
    rw [g2]
    rcases hm with h | ⟨n, h⟩ <;> rcases g3 with ⟨g3, -⟩ | ⟨m, g3, -⟩ <;> rw [h] at g3 <;> cases g3 <;> rfl
  obtain ⟨bs, e1, -, -⟩ := released hp h2 ht g1
  have hcm := createMem_ok hp bs o hc g size
  have hil := lt_of_get g1
  refine ⟨w, o, h1, g1, ?_⟩
  unfold create
  rw [getObj_ok g1, ok_bind, if_pos hc]
  dsimp only
  rw [e1, ok_bind]
  by_cases hy : g ≠ .no ∧ Mappable p size = true
  · obtain ⟨k, o', f1, f2, f3, f4, f5⟩ := hcm.1 hy.1 hy.2
    rw [f1, ok_bind]
    refine ⟨true, _, o', rfl, by rw [get_set hil, if_pos rfl], fun _ => ⟨f4.sizeEq f2, fun hf => ?_, fun hs => ?_⟩,
      fun e => nomatch e⟩
    · rw [f5, hf, Bool.or_false]
    · refine ⟨_, _, k, f4.data f2, get_append_self _ _, f4.alive, ?_⟩
      have ha := hp.al
      have hlen := (f4.lenMem f2).1
      have hge := align_ge p.al ((size + p.start) % 18446744073709551616)
      have hu := usable_ge hp.page k
      rw [Nat.mod_eq_of_lt (by omega)] at hlen hge
      omega
  · have hy' : g = .no ∨ Mappable p size = false := by
      by_cases hg : g = .no
      · exact Or.inl hg
      · right
        cases hm : Mappable p size with
        | false => rfl
        | true => exact absurd ⟨hg, hm⟩ hy
    obtain ⟨o', f1, f2, f3, f4⟩ := hcm.2 hy'
    rw [f1, ok_bind]
    exact ⟨false, _, o', rfl, by rw [get_set hil, if_pos rfl], (fun e => nomatch e), fun _ => f4⟩

/-- The usual 64-bit platform. -/
def lp64 : Par := ⟨4, 40, 48, 4096⟩

theorem lp64_ok : Platform lp64 :=
  ⟨by decide, by decide, by decide, by decide, by decide, by decide, by decide, by decide, by decide, by decide⟩

/-- The object in place `i` (for the witnesses). -/
def look (x : CRes (List Bool × W)) (i : Nat) : Option Obj :=
  match x with
  | .ok (_, w) => (w.objs[i]?).bind id
  | .error _ => none

def resultOf (x : CRes (List Bool × W)) : Option (List Bool) :=
  match x with
  | .ok (r, _) => some r
  | .error _ => none

/-- C78, negation: `First()` stays true when the object is created again over a shared memory that others made. -/
theorem first_stale :
    resultOf (run lp64 ⟨[], []⟩ [.construct .mem, .create 0 (some .new) 100, .create 0 (some .used) 50]) =
      some [true, true, true] ∧
    (look (run lp64 ⟨[], []⟩ [.construct .mem, .create 0 (some .new) 100, .create 0 (some .used) 50]) 0).map Obj.first =
      some true := by
  decide

/-- C78, negation: after a failing `Create`, `GetSize()` is still that of the old memory, `RawData()` NULL. -/
theorem size_stale :
    resultOf (run lp64 ⟨[], []⟩ [.construct .mem, .create 0 (some .new) 100, .create 0 (some .no) 50]) =
      some [true, true, false] ∧
    (look (run lp64 ⟨[], []⟩ [.construct .mem, .create 0 (some .new) 100, .create 0 (some .no) 50]) 0).map
      (fun o => (o.size, o.data)) = some (100, none) := by
  decide

/-- C78, negation: `Create(Name, 2^64 - 1)` returns true with 48 bytes of memory; byte 5000 of it is not there. -/
theorem size_wraps :
    resultOf (run lp64 ⟨[], []⟩ [.construct .mem, .create 0 (some .new) 18446744073709551615]) = some [true, true] ∧
    (look (run lp64 ⟨[], []⟩ [.construct .mem, .create 0 (some .new) 18446744073709551615]) 0).map Obj.size =
      some 18446744073709551615 ∧
    resultOf (run lp64 ⟨[], []⟩ [.construct .mem, .create 0 (some .new) 18446744073709551615, .access 0 5000 1]) =
      none := by
  decide

/-! ## Layout -/

/-- Two parts have no byte in common. -/
def Apart (q r : Part) : Prop := q.off + q.len ≤ r.off ∨ r.off + r.len ≤ q.off

theorem chain_apart : ∀ {qs : List Part} {lo hi : Nat}, Chain lo qs hi → qs.Pairwise Apart
  | [], _, _, _ => List.Pairwise.nil
  | q :: qs, lo, hi, ⟨_, _, h3⟩ => by
    refine List.Pairwise.cons (fun r hr => Or.inl ?_) (chain_apart h3)
    exact (h3.bounds r hr).1

/-- C80 (partial): on every platform the parts of an object lie inside the memory `Create` asks for, behind the header of
named memory, and no two of them overlap.  Missing: their alignment (`misaligned`). -/
theorem layout_partial {p : Par} (hp : Platform p) (c : Cls) (hc : c ≠ .mem) (o : Nat) :
    (∀ q ∈ p.parts o c, o ≤ q.off ∧ q.off + q.len ≤ o + p.objSize 0 c) ∧ (p.parts o c).Pairwise Apart ∧
    (∀ q ∈ p.header, q.off + q.len ≤ p.start) ∧ p.header.Pairwise Apart :=
  ⟨(parts_chain (facts hp) o c hc).bounds, chain_apart (parts_chain (facts hp) o c hc),
    fun q hq => ((header_chain (facts hp)).bounds q hq).2, chain_apart (header_chain (facts hp))⟩

/-- C80, negation: on the usual 64-bit platform, where `pthread_mutex_t` needs addresses divisible by 8, the mutex of the
header (the memory begins at a page) is at offset 4. -/
theorem misaligned : ∃ q ∈ lp64.header, q.len = lp64.msz ∧ ¬ 8 ∣ q.off :=
  ⟨⟨4, 40, false⟩, by decide, rfl, by decide⟩

/-! ## The cases are not empty -/

/-- One object of each class, created under names and without, found and not found, used, created again. -/
def sample : List Op :=
  [.construct .sem, .construct .event, .construct .lock, .construct .mem, .use 0 true, .create 0 none 0,
    .create 1 (some .new) 0, .create 2 none 0, .create 3 (some .used) 1000, .use 0 true, .use 1 true, .use 2 false,
    .access 3 990 10, .create 0 (some .used) 0, .create 1 (some .no) 0, .use 1 true, .create 2 none 0,
    .create 3 (some .new) 18446744073709551610, .create 3 none 3, .destroy 0, .destroy 1, .destroy 2, .destroy 3]

example : LegalAll lp64 [] sample := by
  simp [sample, LegalAll, Legal, There, Callable, does, created, Mappable, lp64, Par.start, Par.A, alignSize]

example : (doesAll lp64 [] sample).1 =
    [true, true, true, true, false, true, true, true, true, true, true, false, true, true, false, false, true, true, false,
      true, true, true, true] := by decide

example : ∀ (i : Nat) (c : Cls) (n : Nat), (doesAll lp64 [] sample).2[i]? ≠ some (.opened c n) := by
  have : (doesAll lp64 [] sample).2 = [.gone, .gone, .gone, .gone] := by decide
  rw [this]
  intro i c n
  rcases i with _ | _ | _ | _ | i <;> simp

end Verif.SyncLife
