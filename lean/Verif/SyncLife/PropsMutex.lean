import Verif.SyncLife.MutexSpec
import Verif.SyncLife.Props

/-!
# Property theorems: the life of `Mutex` (C79)
-/

namespace Verif.SyncLife.Mtx
open Spec
open Verif.SyncLife.Spec (Platform)
open Verif.DirList (lt_of_get get_set set_same)

def memOf (x : Option M) : Option Nat := x.bind fun m => m.obj.mem

def mems (l : List (Option M)) : List (Option Nat) := l.map memOf

theorem mems_get (l : List (Option M)) (i : Nat) : (mems l)[i]? = l[i]?.map memOf := List.getElem?_map

theorem mems_set (l : List (Option M)) (i : Nat) (x : Option M) : mems (l.set i x) = (mems l).set i (memOf x) :=
  List.map_set

/-- The mutex agrees with its state. -/
def MOk (p : Par) (bs : List Blk) (down : List Nat) (m : M) : St → Prop
  | .gone => False
  | .closed => ObjOk p bs m.obj (.closed .sem) ∧ m.owner = 0 ∧ m.count = 0
  | .opened n o c => ObjOk p bs m.obj (.opened .sem 0) ∧ m.obj.named = n ∧ m.owner = o ∧ m.count = c ∧ (o = 0 ↔ c = 0) ∧
      c < 4294967296 ∧ ∀ b, m.obj.mem = some b → (b ∈ down ↔ o ≠ 0)

def At (p : Par) (bs : List Blk) (down : List Nat) (x : Option M) (st : St) : Prop :=
  match x with
  | none => st = .gone
  | some m => MOk p bs down m st

structure Rel (p : Par) (w : W) (a : A) : Prop where
  owned : Owned w.blks (mems w.ms)
  len : w.ms.length = a.length
  at' : ∀ (i : Nat) (x : Option M) (st : St), w.ms[i]? = some x → a[i]? = some st → At p w.blks w.down x st
  nodup : w.down.Nodup
  old : ∀ b ∈ w.down, b < w.blks.length

theorem rel_empty (p : Par) : Rel p ⟨[], [], []⟩ [] := ⟨Owned.empty, rfl, by simp, by simp, by simp⟩

theorem mok_frame {p : Par} {bs bs' : List Blk} {down down' : List Nat} {m : M} {st : St} (h : MOk p bs down m st)
    (hb : ∀ b, m.obj.mem = some b → bs'[b]? = bs[b]? ∧ (b ∈ down' ↔ b ∈ down)) : MOk p bs' down' m st := by
  cases st with
  | gone => exact h
  | closed => exact h
  | opened n o c =>
    obtain ⟨h1, h2, h3, h4, h5, h6, h7⟩ := h
    exact ⟨objOk_frame h1 (fun b e => (hb b e).1), h2, h3, h4, h5, h6, fun b e => ((hb b e).2).trans (h7 b e)⟩

theorem Rel.update {p : Par} {bs bs' : List Blk} {down down' : List Nat} {ms : List (Option M)} {a : A}
    (r : Rel p ⟨bs, down, ms⟩ a) (i : Nat) {x : Option M} {st : St} (ho : Owned bs' ((mems ms).set i (memOf x)))
    (hx : At p bs' down' x st) (hb : ∀ (j : Nat) (m : M) (b : Nat), j ≠ i → ms[j]? = some (some m) → m.obj.mem = some b →
      bs'[b]? = bs[b]? ∧ (b ∈ down' ↔ b ∈ down)) (hd : down'.Nodup) (hold : ∀ b ∈ down', b < bs'.length) :
    Rel p ⟨bs', down', ms.set i x⟩ (a.set i st) := by
  refine ⟨by rw [mems_set]; exact ho, by simp only [List.length_set]; exact r.len, fun j y s hj hs => ?_, hd, hold⟩
  by_cases hji : j = i
  · subst hji
    have h1 : j < ms.length := by
      have := lt_of_get hj
      simpa using this
    have h2 : j < a.length := by
      have := lt_of_get hs
      simpa using this
    dsimp only at hj
    rw [get_set h1, if_pos rfl] at hj
    rw [get_set h2, if_pos rfl] at hs
    cases hj
    cases hs
    exact hx
  · dsimp only at hj
    rw [List.getElem?_set_ne (Ne.symm hji)] at hj hs
    have := r.at' j y s hj hs
    cases y with
    | none => exact this
    | some m => exact mok_frame this (fun b hm => hb j m b hji hj hm)

theorem get_m {p : Par} {w : W} {a : A} {i : Nat} {st : St} (r : Rel p w a) (h : a[i]? = some st) (hg : st ≠ .gone) :
    ∃ m, w.ms[i]? = some (some m) ∧ MOk p w.blks w.down m st := by
  cases hx : w.ms[i]? with
  | none =>
    rw [List.getElem?_eq_none_iff, r.len] at hx
    have := lt_of_get h
    omega
  | some x =>
    have := r.at' i x st hx h
    cases x with
    | none => exact absurd this hg
    | some m => exact ⟨m, rfl, this⟩

theorem getM_ok {w : W} {i : Nat} {m : M} (h : w.ms[i]? = some (some m)) : getM w i = .ok m := by
  unfold getM
  rw [h]

theorem mem_at {w : W} {i : Nat} {m : M} (h : w.ms[i]? = some (some m)) : (mems w.ms)[i]? = some m.obj.mem := by
  rw [mems_get, h]
  rfl

theorem other_blk {p : Par} {w : W} {a : A} (r : Rel p w a) {i j b : Nat} {m m' : M} (hij : j ≠ i)
    (hi : w.ms[i]? = some (some m)) (hb : m.obj.mem = some b) (hj : w.ms[j]? = some (some m')) {b' : Nat}
    (hb' : m'.obj.mem = some b') : b' ≠ b := by
  rintro rfl
  refine hij (r.owned.own j i b' ?_ ?_)
  · rw [mem_at hj, hb']
  · rw [mem_at hi, hb]

theorem blk_lt {p : Par} {w : W} {a : A} (r : Rel p w a) {j b : Nat} {m : M} (hj : w.ms[j]? = some (some m))
    (hb : m.obj.mem = some b) : b < w.blks.length := by
  obtain ⟨k, hk, -⟩ := r.owned.ok j b (by rw [mem_at hj, hb])
  exact lt_of_get hk

theorem semBlk_ok {p : Par} (hp : Platform p) {w : W} {m : M} {n : Bool} {o c : Nat}
    (h : MOk p w.blks w.down m (.opened n o c)) : ∃ b, m.obj.mem = some b ∧ semBlk p w m = .ok b := by
  obtain ⟨⟨hc, b, k, h1, h2, h3⟩, -⟩ := h
  have hm : m.obj.cls ≠ .mem := by rw [hc]; exact fun e => nomatch e
  refine ⟨b, h1, ?_⟩
  unfold semBlk
  rw [h3.wrap hm]
  dsimp only
  have := parts_fit (facts hp) hm h3
  rw [hc] at this
  rw [touchAll_ok h2 h3.alive this]
  rfl

/-- A mutex whose block is released. -/
theorem released {p : Par} (hp : Platform p) {w : W} {a : A} (r : Rel p w a) {i : Nat} {m : M} {st : St}
    (hi : w.ms[i]? = some (some m)) (ha : a[i]? = some st) :
    ∃ bs, release p w.blks m.obj = .ok bs ∧ Owned bs ((mems w.ms).set i none) ∧ bs.length = w.blks.length ∧
      (∀ (j : Nat) (m' : M) (b : Nat), j ≠ i → w.ms[j]? = some (some m') → m'.obj.mem = some b → bs[b]? = w.blks[b]?) ∧
      ∀ b, m.obj.mem ≠ some b → bs[b]? = w.blks[b]? := by
  have hok := r.at' i _ st hi ha
  have hm := mem_at hi
  cases st with
  | gone => exact False.elim hok
  | closed =>
    refine ⟨w.blks, release_closed hok.1, ?_, rfl, fun _ _ _ _ _ _ => rfl, fun _ _ => rfl⟩
    rw [hok.1.2.1] at hm
    rw [set_same hm]
    exact r.owned
  | opened n o c =>
    obtain ⟨b, k, g1, g2, g3, g4⟩ := release_ok (facts hp) hp.alPage hok.1
    rw [g1] at hm
    refine ⟨_, g4, r.owned.drop hm g2, by simp, fun j m' b' hj hmj hb' => ?_, fun b' hb' => ?_⟩
    · rw [get_set (lt_of_get g2), if_neg (other_blk r hj hi g1 hmj hb')]
    · rw [get_set (lt_of_get g2), if_neg]
      rintro rfl
      exact hb' g1

/-- A mutex without memory gets a new block, or none. -/
theorem recreated {p : Par} (hp : Platform p) {w : W} {a : A} (r : Rel p w a) {i : Nat} {m : M} (name : Option Found)
    (hi : w.ms[i]? = some (some m)) (hcls : m.obj.cls = .sem) {bs : List Blk} (ho : Owned bs ((mems w.ms).set i none))
    (hlen : bs.length = w.blks.length)
    (hb : ∀ (j : Nat) (m' : M) (b : Nat), j ≠ i → w.ms[j]? = some (some m') → m'.obj.mem = some b → bs[b]? = w.blks[b]?) :
    ∃ bs' o, createSync p bs m.obj name = .ok ((created name).1, bs', o) ∧
      Rel p ⟨bs', w.down, w.ms.set i (some ⟨o, 0, 0⟩)⟩ (a.set i (created name).2) ∧
      (bs' = bs ∨ ∃ k, bs' = bs ++ [k]) := by
  have hil := lt_of_get hi
  by_cases hn : name = some .no
  · subst hn
    obtain ⟨o', e1, e2, e3⟩ := createSync_no (p := p) bs m.obj
    refine ⟨bs, o', e1, ?_, Or.inl rfl⟩
    refine Rel.update (bs := w.blks) (down := w.down) r i (x := some ⟨o', 0, 0⟩) ?_ ?_ ?_ r.nodup ?_
    · show Owned _ (List.set _ _ o'.mem)
      rw [e3]
      exact ho
    · exact ⟨⟨e2.trans hcls, e3, fun e => nomatch e⟩, rfl, rfl⟩
    · exact fun j m' b hj hmj hbj => ⟨hb j m' b hj hmj hbj, Iff.rfl⟩
    · intro b hbd
      rw [hlen]
      exact r.old b hbd
  · obtain ⟨k, o', e1, e2, e3, e4, hnm⟩ := createSync_ok (facts hp) bs m.obj (by rw [hcls]; exact fun e => nomatch e) name hn
    have hcr : created name = (true, .opened name.isSome 0 0) := by
      unfold created
      rw [if_neg hn]
    rw [hcr]
    refine ⟨bs ++ [k], o', e1, ?_, Or.inr ⟨k, rfl⟩⟩
    refine Rel.update (bs := w.blks) (down := w.down) r i (x := some ⟨o', 0, 0⟩) ?_ ?_ ?_ r.nodup ?_
    · have := ho.add (i := i) (by rw [get_set (by unfold mems; simpa using hil), if_pos rfl]) e4.alive
      rw [List.set_set] at this
      show Owned _ (List.set _ _ o'.mem)
      rw [e3]
      exact this
    · refine ⟨⟨e2.trans hcls, _, k, e3, get_append_self _ _, e4⟩, hnm, rfl, rfl, Iff.rfl, by omega, fun b hbm => ?_⟩
      dsimp only at hbm
      rw [e3] at hbm
      cases hbm
      refine ⟨fun hbd => ?_, fun e => absurd rfl e⟩
      have := r.old _ hbd
      rw [hlen] at this
      exact absurd this (Nat.lt_irrefl _)
    · intro j m' b hj hmj hbj
      refine ⟨?_, Iff.rfl⟩
      rw [← hb j m' b hj hmj hbj]
      exact List.getElem?_append_left (by rw [hlen]; exact blk_lt r hmj hbj)
    · intro b hbd
      have := r.old b hbd
      simp only [List.length_append, hlen]
      omega

theorem unlock_ok {p : Par} (hp : Platform p) {w : W} {a : A} (r : Rel p w a) (i t : Nat) (all : Bool) (ht : 0 < t)
    (hl : There a i) : ∃ w', unlock p w i t all = .ok ((does a (.unlock i t all)).1, w') ∧
      Rel p w' (does a (.unlock i t all)).2 ∧ w'.blks = w.blks ∧ (∀ b ∈ w'.down, b ∈ w.down) := by
  rcases hl with hl | ⟨n, o, c, hl⟩
  · obtain ⟨m, h1, h2⟩ := get_m r hl (fun e => nomatch e)
    refine ⟨w, ?_, ?_, rfl, fun b hb => hb⟩
    · unfold unlock does
      dsimp only
      rw [getM_ok h1, ok_bind, hl, if_pos (by rw [h2.2.1]; omega)]
    · unfold does
      dsimp only
      rw [hl]
      exact r
  · obtain ⟨m, h1, h2⟩ := get_m r hl (fun e => nomatch e)
    have hil := lt_of_get h1
    obtain ⟨h3, h4, h5, h6, h7, h8, h9⟩ := id h2
    unfold unlock does
    dsimp only
    rw [getM_ok h1, ok_bind, hl]
    dsimp only
    by_cases hot : o = t
    · rw [if_neg (by rw [h5, hot]; exact fun e => e rfl), if_pos hot]
      obtain ⟨b, e1, e2⟩ := semBlk_ok hp h2
      have hc0 : c ≠ 0 := fun e => by have := h7.mpr e; omega
      by_cases hall : all = true ∨ c = 1
      · have hcc : ((if all = true then 1 else m.count) + 4294967295) % 4294967296 = 0 := by
          rcases hall with e | e
          · rw [if_pos e]
          · rw [h6, e]
            split <;> rfl
        rw [if_pos hcc, if_pos hall, e2, ok_bind]
        refine ⟨_, rfl, ?_, rfl, fun b' hb' => List.mem_of_mem_erase hb'⟩
        refine Rel.update (bs := w.blks) (down := w.down) r i (x := some { m with owner := 0, count := 0 }) ?_ ?_ ?_
          (r.nodup.erase b) (fun b' hb' => r.old b' (List.mem_of_mem_erase hb'))
        · show Owned _ (List.set _ _ m.obj.mem)
          rw [set_same (mem_at h1)]
          exact r.owned
        · refine ⟨h3, h4, rfl, rfl, Iff.rfl, by omega, fun b' hb' => ?_⟩
          dsimp only at hb'
          rw [e1] at hb'
          cases hb'
          exact ⟨fun hm => absurd hm (r.nodup.not_mem_erase), fun e => absurd rfl e⟩
        · intro j m' b' hj hmj hbj
          refine ⟨rfl, ?_⟩
          exact List.mem_erase_of_ne (other_blk r hj h1 e1 hmj hbj)
      · have hne : all ≠ true ∧ c ≠ 1 := ⟨fun e => hall (Or.inl e), fun e => hall (Or.inr e)⟩
        have hcc : ((if all = true then 1 else m.count) + 4294967295) % 4294967296 = c - 1 := by
          rw [if_neg hne.1, h6]
          omega
        rw [hcc, if_neg (by omega), if_neg hall]
        refine ⟨_, rfl, ?_, rfl, fun b' hb' => hb'⟩
        refine Rel.update (bs := w.blks) (down := w.down) r i (x := some { m with count := c - 1 }) ?_ ?_ ?_ r.nodup r.old
        · show Owned _ (List.set _ _ m.obj.mem)
          rw [set_same (mem_at h1)]
          exact r.owned
        · refine ⟨h3, h4, h5.trans hot, rfl, ?_, by omega, fun b' hb' => (h9 b' hb').trans (by rw [hot])⟩
          omega
        · exact fun j m' b' hj hmj hbj => ⟨rfl, Iff.rfl⟩
    · rw [if_pos (by rw [h5]; exact hot), if_neg hot]
      exact ⟨w, rfl, r, rfl, fun b hb => hb⟩

theorem there_unlock {a : A} {i t : Nat} {all : Bool} (h : There a i) : There (does a (.unlock i t all)).2 i := by
  have hset : ∀ {st : St} (n : Bool) (o c : Nat), a[i]? = some st → There (a.set i (.opened n o c)) i :=
    fun n o c h => Or.inr ⟨n, o, c, by rw [get_set (lt_of_get h), if_pos rfl]⟩
  rcases id h with hl | ⟨n, o, c, hl⟩
  · unfold does
    dsimp only
    rw [hl]
    exact h
  · unfold does
    dsimp only
    rw [hl]
    dsimp only
    split
    · split
      · exact hset _ _ _ hl
      · exact hset _ _ _ hl
    · exact h

theorem set_unlock {a : A} {i t : Nat} {all : Bool} (st : St) :
    (does a (.unlock i t all)).2.set i st = a.set i st := by
  unfold does
  dsimp only
  split
  · split
    · split
      · exact List.set_set _ ..
      · exact List.set_set _ ..
    · rfl
  · rfl

/-- Semaphores of named memory that are down can still be reached. -/
def Reach (bs : List Blk) (down : List Nat) : Prop :=
  ∀ (b : Nat) (k : Blk), b ∈ down → bs[b]? = some k → k.named = true → k.alive = true

theorem reach_more {bs bs' : List Blk} {down : List Nat} (h : Reach bs down) (ho : ∀ b ∈ down, b < bs.length)
    (hb : bs' = bs ∨ ∃ k, bs' = bs ++ [k]) : Reach bs' down := by
  intro b k hd hk hn
  rcases hb with rfl | ⟨k', rfl⟩
  · exact h b k hd hk hn
  · rw [List.getElem?_append_left (ho b hd)] at hk
    exact h b k hd hk hn

theorem reach_drop {bs bs' : List Blk} {down : List Nat} {b0 : Nat} (h : Reach bs down)
    (hb : ∀ b, b ≠ b0 → bs'[b]? = bs[b]?) (h0 : b0 ∈ down → ∀ k, bs'[b0]? = some k → k.named = true → k.alive = true) :
    Reach bs' down := by
  intro b k hd hk hn
  by_cases e : b = b0
  · subst e
    exact h0 hd k hk hn
  · rw [hb b e] at hk
    exact h b k hd hk hn

theorem step_ok {p : Par} (hp : Platform p) {w : W} {a : A} (r : Rel p w a) (o : Op) (hl : Legal a o) :
    ∃ w', step p w o = .ok ((does a o).1, w') ∧ Rel p w' (does a o).2 ∧
      (Gentle a o → Reach w.blks w.down → Reach w'.blks w'.down) := by
  cases o with
  | construct =>
    refine ⟨_, rfl, ⟨?_, ?_, ?_, r.nodup, r.old⟩, fun _ h => h⟩
    · show Owned w.blks (mems (w.ms ++ [_]))
      unfold mems
      rw [List.map_append]
      exact r.owned.more
    · show (w.ms ++ [_]).length = (a ++ [_]).length
      simp [r.len]
    · intro i x st hx hst
      change (w.ms ++ [_])[i]? = some x at hx
      change (a ++ [_])[i]? = some st at hst
      rcases Nat.lt_trichotomy i w.ms.length with hi | hi | hi
      · rw [List.getElem?_append_left hi] at hx
        rw [List.getElem?_append_left (r.len ▸ hi)] at hst
        exact r.at' i x st hx hst
      · rw [hi, get_append_self] at hx
        rw [hi, r.len, get_append_self] at hst
        cases hx
        cases hst
        exact ⟨⟨rfl, rfl, fun e => nomatch e⟩, rfl, rfl⟩
      · rw [List.getElem?_eq_none (by simp; omega)] at hx
        exact nomatch hx
  | create i t name =>
    obtain ⟨ht, hth, hno⟩ := hl
    rcases hth with hl | ⟨n, o, c, hl⟩
    · obtain ⟨m, h1, h2⟩ := get_m r hl (fun e => nomatch e)
      have hm := mem_at h1
      rw [h2.1.2.1] at hm
      obtain ⟨bs', o', e1, e2, e3⟩ := recreated hp r name h1 h2.1.1 (bs := w.blks) (by rw [set_same hm]; exact r.owned) rfl
        (fun _ _ _ _ _ _ => rfl)
      unfold step create does
      dsimp only
      rw [getM_ok h1, ok_bind, hl, if_neg (by rw [h2.2.2]; exact Nat.lt_irrefl _), e1, ok_bind, h2.2.1, h2.2.2]
      exact ⟨_, rfl, e2, fun _ h => reach_more h r.old e3⟩
    · obtain ⟨m, h1, h2⟩ := get_m r hl (fun e => nomatch e)
      obtain ⟨h3, h4, h5, h6, h7, h8, h9⟩ := id h2
      have ho : o ≠ 0 := fun e => hno n c (by rw [hl, e])
      have hc : c ≠ 0 := fun e => ho (h7.mpr e)
      unfold step create does
      dsimp only
      rw [getM_ok h1, ok_bind, hl, if_pos (by rw [h6]; omega)]
      dsimp only
      by_cases hot : o = t
      · obtain ⟨bs, g1, g2, g3, g4, g5⟩ := released hp r h1 hl
        obtain ⟨bs', o', e1, e2, e3⟩ := recreated hp r name h1 h3.1 g2 g3 g4
        rw [if_pos (h5.trans hot), if_pos hot, g1, ok_bind, e1, ok_bind]
        refine ⟨_, rfl, e2, fun hg h => reach_more (reach_drop (b0 := m.obj.mem.getD 0) h (fun b hb => g5 b ?_) ?_)
          (fun b hb => by rw [g3]; exact r.old b hb) e3⟩
        · intro e
          rw [e] at hb
          exact hb rfl
        · obtain ⟨b, k, f1, f2, f3, f4⟩ := release_ok (facts hp) hp.alPage h3
          rw [g1] at f4
          cases f4
          rw [f1]
          dsimp only [Option.getD]
          rw [get_set (lt_of_get f2), if_pos rfl]
          rintro - k' hk' hn
          cases hk'
          exfalso
          obtain ⟨hcls, b', k', f5, f6, f7⟩ := h3
          rw [f1] at f5
          cases f5
          rw [f2] at f6
          cases f6
          have : n = true := by
            rw [← h4, ← f7.named (by rw [hcls]; exact fun e => nomatch e)]
            exact hn
          exact hg c (by rw [hl, this, hot])
      · rw [if_neg (by rw [h5]; exact hot), if_neg hot]
        exact ⟨w, rfl, r, fun _ h => h⟩
  | lock i t got =>
    obtain ⟨ht, n, o, c, hl, hcc⟩ := hl
    obtain ⟨m, h1, h2⟩ := get_m r hl (fun e => nomatch e)
    obtain ⟨h3, h4, h5, h6, h7, h8, h9⟩ := id h2
    unfold step lock does
    dsimp only
    rw [getM_ok h1, ok_bind, hl]
    dsimp only
    by_cases hot : o = t
    · rw [if_pos (h5.trans hot), if_pos hot, h6, Nat.mod_eq_of_lt hcc]
      refine ⟨_, rfl, ?_, fun _ h => h⟩
      refine Rel.update (bs := w.blks) (down := w.down) r i (x := some { m with count := c + 1 }) ?_ ?_ ?_ r.nodup r.old
      · show Owned _ (List.set _ _ m.obj.mem)
        rw [set_same (mem_at h1)]
        exact r.owned
      · exact ⟨h3, h4, h5.trans hot, rfl, by omega, hcc, fun b' hb' => (h9 b' hb').trans (by rw [hot])⟩
      · exact fun j m' b' hj hmj hbj => ⟨rfl, Iff.rfl⟩
    · obtain ⟨b, e1, e2⟩ := semBlk_ok hp h2
      rw [if_neg (by rw [h5]; exact hot), if_neg hot, e2, ok_bind]
      by_cases hg : o = 0 ∧ got = true
      · rw [if_pos ⟨hg.2, fun e => ((h9 b e1).mp e) hg.1⟩, if_pos hg]
        refine ⟨_, rfl, ?_, fun _ h => ?_⟩
        rotate_left
        · intro b' k hb' hk hn
          rcases List.mem_cons.mp hb' with rfl | hb'
          · obtain ⟨k', f1, f2⟩ := r.owned.ok i b' (by rw [mem_at h1, e1])
            dsimp only at hk
            rw [f1] at hk
            cases hk
            exact f2
          · exact h b' k hb' hk hn
        refine Rel.update (bs := w.blks) (down := w.down) r i (x := some { m with owner := t, count := 1 }) ?_ ?_ ?_ ?_ ?_
        · show Owned _ (List.set _ _ m.obj.mem)
          rw [set_same (mem_at h1)]
          exact r.owned
        · refine ⟨h3, h4, rfl, rfl, by omega, by omega, fun b' hb' => ?_⟩
          dsimp only at hb'
          rw [e1] at hb'
          cases hb'
          exact ⟨fun _ => by omega, fun _ => List.mem_cons_self⟩
        · intro j m' b' hj hmj hbj
          refine ⟨rfl, ?_⟩
          rw [List.mem_cons]
          exact ⟨fun e => e.resolve_left (other_blk r hj h1 e1 hmj hbj), Or.inr⟩
        · exact List.nodup_cons.mpr ⟨fun e => ((h9 b e1).mp e) hg.1, r.nodup⟩
        · intro b' hb'
          rcases List.mem_cons.mp hb' with rfl | hb'
          · exact blk_lt r h1 e1
          · exact r.old b' hb'
      · rw [if_neg hg, if_neg]
        · exact ⟨w, rfl, r, fun _ h => h⟩
        · rintro ⟨g1, g2⟩
          refine hg ⟨?_, g1⟩
          by_cases e : o = 0
          · exact e
          · exact absurd ((h9 b e1).mpr e) g2
  | unlock i t all =>
    obtain ⟨w', h1, h2, h3, h4⟩ := unlock_ok hp r i t all hl.1 hl.2
    refine ⟨w', h1, h2, fun _ h b k hb hk hn => ?_⟩
    rw [h3] at hk
    exact h b k (h4 b hb) hk hn
  | destroy i t =>
    obtain ⟨w', h1, h2, h3, h4⟩ := unlock_ok hp r i t true hl.1 hl.2
    have hth := there_unlock (t := t) (all := true) hl.2
    obtain ⟨st, hst, hg⟩ : ∃ st, (does a (.unlock i t true)).2[i]? = some st ∧ st ≠ .gone := by
      rcases hth with h | ⟨n, o, c, h⟩
      · exact ⟨_, h, fun e => nomatch e⟩
      · exact ⟨_, h, fun e => nomatch e⟩
    obtain ⟨m, g1, g2⟩ := get_m h2 hst hg
    obtain ⟨bs, e1, e2, e3, e4, e5⟩ := released hp h2 g1 hst
    unfold step destroy
    dsimp only
    rw [h1, ok_bind]
    dsimp only
    rw [getM_ok g1, ok_bind, e1, ok_bind]
    refine ⟨_, rfl, ?_, fun hg' h => ?_⟩
    · show Rel p _ (a.set i .gone)
      rw [← set_unlock (t := t) (all := true)]
      exact Rel.update (bs := w'.blks) (down := w'.down) h2 i (x := none) e2 rfl
        (fun j m' b hj hmj hbj => ⟨e4 j m' b hj hmj hbj, Iff.rfl⟩) h2.nodup (fun b hb => by rw [e3]; exact h2.old b hb)
    · have h' : Reach w'.blks w'.down := by
        intro b k hb hk hn
        rw [h3] at hk
        exact h b k (h4 b hb) hk hn
      refine reach_drop (b0 := m.obj.mem.getD w'.blks.length) h' (fun b hb => e5 b ?_) ?_
      · intro e
        rw [e] at hb
        exact hb rfl
      · intro hd
        exfalso
        cases hmm : m.obj.mem with
        | none =>
          rw [hmm] at hd
          exact absurd (h2.old _ hd) (Nat.lt_irrefl _)
        | some b =>
          rw [hmm] at hd
          change b ∈ w'.down at hd
          cases st with
          | gone => exact hg rfl
          | closed =>
            have := g2.1.2.1
            rw [hmm] at this
            cases this
          | opened n o c =>
            have ho := (g2.2.2.2.2.2.2 b hmm).mp hd
            have hst' := hst
            unfold does at hst'
            dsimp only at hst'
            rcases hl.2 with e | ⟨n', o', c', e⟩
            · rw [e] at hst'
              dsimp only at hst'
              rw [e] at hst'
              cases hst'
            · rw [e] at hst'
              dsimp only at hst'
              rcases hg' n' o' c' e with rfl | rfl
              · rw [if_neg (by have := hl.1; omega)] at hst'
                rw [e] at hst'
                cases hst'
                exact ho rfl
              · rw [if_pos rfl, if_pos (Or.inl rfl), get_set (lt_of_get e), if_pos rfl] at hst'
                cases hst'
                exact ho rfl

theorem run_ok {p : Par} (hp : Platform p) : ∀ (os : List Op) {w : W} {a : A}, Rel p w a → LegalAll a os →
    ∃ w', run p w os = .ok ((doesAll a os).1, w') ∧ Rel p w' (doesAll a os).2 ∧
      (GentleAll a os → Reach w.blks w.down → Reach w'.blks w'.down)
  | [], w, a, r, _ => ⟨w, rfl, r, fun _ h => h⟩
  | o :: os, w, a, r, hl => by
    obtain ⟨w1, h1, h2, g2⟩ := step_ok hp r o hl.1
    obtain ⟨w2, h3, h4, g4⟩ := run_ok hp os h2 hl.2
    refine ⟨w2, ?_, h4, fun hg h => g4 hg.2 (g2 hg.1 h)⟩
    unfold run
    rw [h1, ok_bind]
    dsimp only
    rw [h3]
    rfl

/-- C79 (partial): for every history that `Legal` admits, the mutexes do what `Spec.does` says, without undefined
behaviour; every live block is that of exactly one created mutex, and in memory that was given back no `pthread` object is
left.  Missing: a created mutex that nobody holds is created again (`create_leaks`), a mutex is locked before `Create`
succeeded (`lock_uncreated`, `lock_after_failure`). -/
theorem mutex_life_partial {p : Par} (hp : Platform p) (os : List Op) (hl : LegalAll [] os) :
    ∃ w, run p ⟨[], [], []⟩ os = .ok ((doesAll [] os).1, w) ∧
      (∀ (b : Nat) (k : Blk), w.blks[b]? = some k → k.alive = true → ∃ (i : Nat) (m : M) (n : Bool) (o c : Nat),
        w.ms[i]? = some (some m) ∧ m.obj.mem = some b ∧ (doesAll [] os).2[i]? = some (.opened n o c) ∧
        ∀ (j : Nat) (m' : M), w.ms[j]? = some (some m') → m'.obj.mem = some b → j = i) ∧
      ∀ (b : Nat) (k : Blk), w.blks[b]? = some k → k.alive = false → k.live = [] := by
  obtain ⟨w, h1, h2, -⟩ := run_ok hp os (rel_empty p) hl
  refine ⟨w, h1, fun b k hb hk => ?_, h2.owned.clean⟩
  obtain ⟨i, hi⟩ := h2.owned.used b k hb hk
  rw [mems_get] at hi
  cases hx : w.ms[i]? with
  | none => rw [hx] at hi; cases hi
  | some x =>
    cases x with
    | none => rw [hx] at hi; cases hi
    | some m =>
      rw [hx] at hi
      have hm : m.obj.mem = some b := Option.some.inj hi
      have hil : i < (doesAll [] os).2.length := by rw [← h2.len]; exact lt_of_get hx
      have hat := h2.at' i (some m) _ hx (List.getElem?_eq_getElem hil)
      cases hs : (doesAll [] os).2[i] with
      | gone => rw [hs] at hat; exact False.elim hat
      | closed => rw [hs] at hat; have := hat.1.2.1; rw [hm] at this; cases this
      | opened n o c =>
        exact ⟨i, m, n, o, c, hx, hm, by rw [List.getElem?_eq_getElem hil, hs], fun j m' hj hj' =>
          h2.owned.own j i b (by rw [mem_at hj, hj']) (by rw [mem_at hx, hm])⟩

/-- C79 (partial): if besides no holder of a named mutex calls `Create` on it and nobody destroys a mutex held by somebody
else, then a named semaphore that is down is that of a mutex somebody holds now: no other process waits for a mutex that
nobody has.  Missing: `Create` by the holder (`create_keeps_down`). -/
theorem mutex_free_partial {p : Par} (hp : Platform p) (os : List Op) (hl : LegalAll [] os) (hg : GentleAll [] os) :
    ∃ w, run p ⟨[], [], []⟩ os = .ok ((doesAll [] os).1, w) ∧
      ∀ (b : Nat) (k : Blk), b ∈ w.down → w.blks[b]? = some k → k.named = true →
        ∃ (i : Nat) (m : M) (n : Bool) (o c : Nat), w.ms[i]? = some (some m) ∧ m.obj.mem = some b ∧
          (doesAll [] os).2[i]? = some (.opened n o c) ∧ o ≠ 0 := by
  obtain ⟨w, h1, h2, h3⟩ := run_ok hp os (rel_empty p) hl
  obtain ⟨w', g1, g2, -⟩ := mutex_life_partial hp os hl
  rw [h1] at g1
  cases g1
  refine ⟨w, h1, fun b k hb hk hn => ?_⟩
  have ha := h3 hg (fun b k hb => nomatch hb) b k hb hk hn
  obtain ⟨i, m, n, o, c, e1, e2, e3, -⟩ := g2 b k hk ha
  refine ⟨i, m, n, o, c, e1, e2, e3, ?_⟩
  have := h2.at' i _ _ e1 e3
  exact (this.2.2.2.2.2.2 b e2).mp hb

/-- The results and the memory still there, or the undefined behaviour. -/
def seen (x : CRes (List Bool × W)) : Except UB (List Bool × List Bool × List Nat) :=
  x.map fun y => (y.1, y.2.blks.map Blk.alive, y.2.down)

/-- C79, negation: a mutex that is created twice leaks the memory of the first time. -/
theorem create_leaks :
    seen (run lp64 ⟨[], [], []⟩ [.construct, .create 0 1 none, .create 0 1 none, .destroy 0 1]) =
      .ok ([true, true, true, true], [true, false], []) := by
  rfl

/-- C79, negation: `Lock` of a mutex without `Create` uses pointers that were never set. -/
theorem lock_uncreated : seen (run lp64 ⟨[], [], []⟩ [.construct, .lock 0 1 true]) = .error .uninit := by
  rfl

/-- C79, negation: after a failing `Create` by the holder `Lock` uses memory that was given back. -/
theorem lock_after_failure : seen (run lp64 ⟨[], [], []⟩
    [.construct, .create 0 1 none, .lock 0 1 true, .create 0 1 (some .no), .lock 0 1 true]) = .error .badPtr := by
  rfl

/-- C79, negation: `Create` by the holder of a named mutex leaves its semaphore down for all other processes, even
after the mutex is destroyed. -/
theorem create_keeps_down : seen (run lp64 ⟨[], [], []⟩
    [.construct, .create 0 1 (some .new), .lock 0 1 true, .create 0 1 none, .unlock 0 1 true, .destroy 0 1]) =
      .ok ([true, true, true, true, false, true], [false, false], [0]) := by
  rfl

/-! ## The cases are not empty -/

def sample : List Op :=
  [.construct, .create 0 1 none, .construct, .create 1 2 (some .used), .lock 0 1 true, .lock 0 1 false, .lock 0 2 true,
    .create 0 2 none, .lock 1 2 true, .unlock 0 1 false, .create 0 1 (some .new), .lock 0 2 true, .unlock 1 2 true,
    .unlock 1 2 false, .lock 1 1 false, .destroy 1 1, .destroy 0 2]

example : LegalAll [] sample := by
  simp [sample, LegalAll, Legal, There, does, created]
  exact ⟨⟨0, 0, by decide⟩, ⟨1, 1, by decide⟩, ⟨1, 2, by decide⟩, ⟨0, 0, by decide⟩⟩

example : GentleAll [] sample := by simp [sample, GentleAll, Gentle, does, created]

example : (doesAll [] sample).1 = [true, true, true, true, true, true, false, false, true, true, true, true, true, false,
    false, true, true] := by decide

end Verif.SyncLife.Mtx
