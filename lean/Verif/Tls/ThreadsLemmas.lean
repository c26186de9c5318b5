import Verif.Tls.Threads
import Verif.Tls.Lemmas

/-! # A thread does not notice blocks it does not own -/

namespace Verif.Tls

/-- `hr` is `hm` with the blocks of `F` filled as in `h0`, which `hm` takes for freed. -/
structure Sim (F : Nat → Prop) (h0 hm hr : BHeap Cell) : Prop where
  len : hm.length = hr.length
  old : h0.length ≤ hr.length
  oth : ∀ p, F p → p < h0.length ∧ hm[p]? = some none ∧ hr[p]? = h0[p]?
  own : ∀ p, ¬ F p → hm[p]? = hr[p]?

/-- If `a` succeeds so does `b`, with related results. -/
def CSim {α β : Type} (R : α → β → Prop) (a : CRes α) (b : CRes β) : Prop := ∀ v, a = .ok v → ∃ w, b = .ok w ∧ R v w

theorem CSim.bind {α β γ δ : Type} {R : α → β → Prop} {S : γ → δ → Prop} {a : CRes α} {b : CRes β} {f : α → CRes γ} {g : β → CRes δ}
    (h : CSim R a b) (hfg : ∀ v w, R v w → CSim S (f v) (g w)) : CSim S (a >>= f) (b >>= g) := by
  intro v e
  cases a with
  | error u => cases e
  | ok x =>
    obtain ⟨w, rfl, r⟩ := h x rfl
    exact hfg x w r v e

theorem CSim.ok {α β : Type} {R : α → β → Prop} {v : α} {w : β} (h : R v w) : CSim R (.ok v) (.ok w) := by
  intro x e
  cases e
  exact ⟨w, rfl, h⟩

theorem CSim.error {α β : Type} {R : α → β → Prop} {u : UB} {b : CRes β} : CSim R (.error u) b := by
  intro x e
  cases e

theorem CSim.same {α : Type} {a : CRes α} : CSim (fun v w => v = w) a a := fun v e => ⟨v, e, rfl⟩

variable {F : Nat → Prop} {h0 hm hr : BHeap Cell}

theorem Sim.block (s : Sim F h0 hm hr) (p : Nat) :
    CSim (fun v w => v = w ∧ ¬ F p ∧ p < hm.length ∧ p < hr.length) (hm.block p) (hr.block p) := by
  intro v e
  unfold BHeap.block at e ⊢
  have hF : ¬ F p := by
    intro h
    rw [(s.oth p h).2.1] at e
    cases e
  rw [← s.own p hF]
  refine ⟨v, e, rfl, hF, ?_⟩
  have : p < hm.length := by
    rcases Nat.lt_or_ge p hm.length with h | h
    · exact h
    · rw [List.getElem?_eq_none h] at e; cases e
  exact ⟨this, by rw [← s.len]; exact this⟩

theorem Sim.set (s : Sim F h0 hm hr) {p : Nat} (hF : ¬ F p) (v : Option (List Cell)) : Sim F h0 (hm.set p v) (hr.set p v) := by
  refine ⟨by simp [s.len], by simp [s.old], fun q hq => ?_, fun q hq => ?_⟩
  · have hne : p ≠ q := fun e => hF (e ▸ hq)
    rw [List.getElem?_set_ne hne, List.getElem?_set_ne hne]
    exact s.oth q hq
  · rw [List.getElem?_set, List.getElem?_set, s.len, s.own q hq]

theorem Sim.alloc (s : Sim F h0 hm hr) (c : List Cell) : Sim F h0 (hm ++ [some c]) (hr ++ [some c]) := by
  have hl := s.len
  have ho := s.old
  refine ⟨by simp [hl], by simp; omega, fun q hq => ?_, fun q hq => ?_⟩
  · obtain ⟨h1, h2, h3⟩ := s.oth q hq
    rw [List.getElem?_append_left (by omega), List.getElem?_append_left (by omega)]
    exact ⟨h1, h2, h3⟩
  · rw [List.getElem?_append, List.getElem?_append, s.own q hq, hl]

theorem Sim.free (s : Sim F h0 hm hr) (p : Nat) : CSim (Sim F h0) (hm.free p) (hr.free p) := by
  unfold BHeap.free
  refine (s.block p).bind fun v w h => ?_
  exact CSim.ok (s.set h.2.1 none)

theorem Sim.load (s : Sim F h0 hm hr) (p i : Nat) : CSim (fun v w => v = w) (hm.load p i) (hr.load p i) := by
  unfold BHeap.load
  refine (s.block p).bind fun v w h => ?_
  rw [h.1]
  exact CSim.same

theorem Sim.store (s : Sim F h0 hm hr) (p i : Nat) (c : Cell) : CSim (Sim F h0) (hm.store p i c) (hr.store p i c) := by
  unfold BHeap.store
  refine (s.block p).bind fun v w h => ?_
  rw [h.1]
  refine CSim.same.bind fun v' w' h' => ?_
  rw [h']
  exact CSim.ok (s.set h.2.1 _)

/-- Two states that differ in the heap only, as in `Sim`. -/
def StSim (F : Nat → Prop) (h0 : BHeap Cell) (s s' : St) : Prop := Sim F h0 s.heap s'.heap ∧ s'.main = s.main ∧ s'.bk = s.bk

/-- The same with a result. -/
def PSim {α : Type} (F : Nat → Prop) (h0 : BHeap Cell) (x y : α × St) : Prop := x.1 = y.1 ∧ StSim F h0 x.2 y.2

variable {s s' : St}

theorem putPos_sim (h : StSim F h0 s s') (b pos : Nat) : CSim (PSim F h0) (putPos s b pos) (putPos s' b pos) := by
  unfold putPos
  refine (h.1.store b 0 _).bind fun v w hs => ?_
  exact CSim.ok ⟨rfl, hs, h.2⟩

theorem getPos_sim (h : StSim F h0 s s') (b : Nat) : CSim (fun v w => v = w) (getPos s b) (getPos s' b) := by
  unfold getPos
  refine (h.1.load b 0).bind fun v w hs => ?_
  subst hs
  exact CSim.same

theorem sysMalloc_sim (h : StSim F h0 s s') (ok : Bool) (n : Nat) :
    (sysMalloc s ok n = none ∧ sysMalloc s' ok n = none) ∨
      ∃ b s1 s1', sysMalloc s ok n = some (b, s1) ∧ sysMalloc s' ok n = some (b, s1') ∧ StSim F h0 s1 s1' := by
  cases ok with
  | false => exact .inl ⟨rfl, rfl⟩
  | true =>
    right
    refine ⟨_, _, { s' with heap := s'.heap ++ [some (List.replicate n none)] }, rfl, ?_, h.1.alloc _, h.2⟩
    simp [sysMalloc, BHeap.alloc, h.1.len]

theorem malloc_sim (h : StSim F h0 s s') (ok : Bool) (n : Nat) : CSim (PSim F h0) (malloc s ok n) (malloc s' ok n) := by
  unfold malloc
  split
  · exact CSim.ok ⟨rfl, h⟩
  · rw [h.2.1, h.2.2]
    cases s.main with
    | none => exact CSim.ok ⟨rfl, h⟩
    | some m =>
      refine CSim.same.bind fun pos w hp => ?_
      subst hp
      split
      · rcases sysMalloc_sim h ok (2 ^ pos + 1) with ⟨e1, e2⟩ | ⟨b, s1, s1', e1, e2, h1⟩
        · rw [e1, e2]; exact CSim.error
        · rw [e1, e2]; exact putPos_sim h1 b pos
      · cases s.bk pos with
        | cons b rest =>
          dsimp only
          exact putPos_sim (F := F) (h0 := h0) (s := ⟨s.heap, some m, setAt s.bk pos rest⟩) (s' := ⟨s'.heap, some m, setAt s.bk pos rest⟩) ⟨h.1, rfl, rfl⟩ b pos
        | nil =>
          rcases sysMalloc_sim h ok (if 2 ^ pos + 1 < nodeSize then nodeSize else 2 ^ pos + 1) with ⟨e1, e2⟩ | ⟨b, s1, s1', e1, e2, h1⟩
          · rw [e1, e2]; exact CSim.ok ⟨rfl, h⟩
          · rw [e1, e2]; exact putPos_sim h1 b pos

theorem free_sim (h : StSim F h0 s s') (p : Ptr) (cache : Bool) : CSim (StSim F h0) (free s p cache) (free s' p cache) := by
  unfold free
  cases p with
  | null => exact CSim.ok h
  | one =>
    rw [h.2.1]
    cases s.main with
    | none => exact CSim.ok h
    | some m => exact CSim.error
  | blk b =>
    rw [h.2.1]
    cases s.main with
    | none => exact CSim.ok h
    | some m =>
      refine (getPos_sim h b).bind fun pos w hp => ?_
      subst hp
      split
      · refine (h.1.free b).bind fun v w hs => ?_
        exact CSim.ok ⟨hs, rfl, h.2.2⟩
      · split
        · refine (h.1.free b).bind fun v w hs => ?_
          exact CSim.ok ⟨hs, rfl, h.2.2⟩
        · refine (h.1.block b).bind fun v w hs => ?_
          rw [hs.1]
          split
          · exact CSim.error
          · rw [h.2.2]
            exact CSim.ok ⟨h.1.set hs.2.1 _, rfl, rfl⟩

theorem sysRealloc_sim (h : StSim F h0 s s') (ok : Bool) (b n : Nat) :
    CSim (fun x y => (x = none ∧ y = none) ∨ ∃ b s1 s1', x = some (b, s1) ∧ y = some (b, s1') ∧ StSim F h0 s1 s1')
      (sysRealloc s ok b n) (sysRealloc s' ok b n) := by
  unfold sysRealloc
  cases ok with
  | false => exact CSim.ok (.inl ⟨rfl, rfl⟩)
  | true =>
    refine (h.1.block b).bind fun v w hs => ?_
    rw [hs.1]
    refine (h.1.free b).bind fun v' w' hs' => ?_
    refine CSim.ok (.inr ⟨_, _, { s' with heap := _ }, rfl, ?_, hs'.alloc _, h.2⟩)
    simp only [BHeap.alloc, hs'.len]

theorem copyOver_sim (h : StSim F h0 s s') (dst : Ptr) (src pos2 : Nat) :
    CSim (StSim F h0) (copyOver s dst src pos2) (copyOver s' dst src pos2) := by
  unfold copyOver
  split
  · exact CSim.error
  · cases dst with
    | null => exact CSim.error
    | one => exact CSim.error
    | blk d =>
      refine (h.1.block src).bind fun v w hs => ?_
      refine (h.1.block d).bind fun v' w' hs' => ?_
      rw [hs.1, hs'.1]
      refine CSim.same.bind fun v'' w'' hs'' => ?_
      rw [hs'']
      exact CSim.ok ⟨h.1.set hs'.2.1 _, h.2⟩

theorem realloc_sim (h : StSim F h0 s s') (ok : Bool) (p : Ptr) (n : Nat) (cache : Bool) :
    CSim (PSim F h0) (realloc s ok p n cache) (realloc s' ok p n cache) := by
  unfold realloc
  split
  · refine (free_sim h p cache).bind fun v w hs => ?_
    exact CSim.ok ⟨rfl, hs⟩
  · cases p with
    | null => exact malloc_sim h ok n
    | one => exact CSim.error
    | blk b =>
      refine CSim.same.bind fun pos w hp => ?_
      subst hp
      refine (getPos_sim h b).bind fun pos2 w hp => ?_
      subst hp
      split
      · exact CSim.ok ⟨rfl, h⟩
      · rw [h.2.1]
        cases s.main with
        | none => exact CSim.ok ⟨rfl, h⟩
        | some m =>
          dsimp only
          split
          · refine (sysRealloc_sim h ok b _).bind fun x y hs => ?_
            rcases hs with ⟨rfl, rfl⟩ | ⟨b2, s1, s1', rfl, rfl, h1⟩
            · exact CSim.ok ⟨rfl, h⟩
            · exact CSim.ok ⟨rfl, h1⟩
          · refine (malloc_sim h ok (2 ^ pos)).bind fun x y hs => ?_
            obtain ⟨p2, s1⟩ := x
            obtain ⟨p2', s1'⟩ := y
            obtain ⟨rfl, h1⟩ : p2 = p2' ∧ StSim F h0 s1 s1' := hs
            refine (copyOver_sim h1 p2 b pos2).bind fun v w hs => ?_
            refine (free_sim hs _ cache).bind fun v w hs => ?_
            exact CSim.ok ⟨rfl, hs⟩

theorem step_sim (h : StSim F h0 s s') (op : Op) : CSim (PSim F h0) (step s op) (step s' op) := by
  cases op with
  | malloc ok n =>
    refine (malloc_sim h ok n).bind fun x y hs => ?_
    exact CSim.ok ⟨congrArg Out.ptr hs.1, hs.2⟩
  | realloc ok p n c =>
    refine (realloc_sim h ok p n c).bind fun x y hs => ?_
    exact CSim.ok ⟨congrArg Out.ptr hs.1, hs.2⟩
  | free p c =>
    refine (free_sim h p c).bind fun x y hs => ?_
    exact CSim.ok ⟨rfl, hs⟩
  | peek p i =>
    unfold step peek
    cases p with
    | null => exact CSim.error
    | one => exact CSim.error
    | blk b =>
      refine (h.1.load b _).bind fun x y hs => ?_
      subst hs
      exact CSim.ok ⟨rfl, h⟩
  | poke p i v =>
    have : CSim (StSim F h0) (poke s p i v) (poke s' p i v) := by
      unfold poke
      cases p with
      | null => exact CSim.error
      | one => exact CSim.error
      | blk b =>
        refine (h.1.store b _ _).bind fun x y hs => ?_
        exact CSim.ok ⟨hs, h.2⟩
    refine this.bind fun x y hs => ?_
    exact CSim.ok ⟨rfl, hs⟩

theorem freeNodes_sim : ∀ (bs : List Nat) {hm hr : BHeap Cell}, Sim F h0 hm hr → CSim (Sim F h0) (freeNodes bs hm) (freeNodes bs hr)
  | [], _, _, h => CSim.ok h
  | b :: bs, _, _, h => (h.free b).bind fun _ _ h => freeNodes_sim bs h

theorem freeBuckets_sim (bk : Nat → List Nat) : ∀ (n x : Nat) {hm hr : BHeap Cell}, Sim F h0 hm hr →
    CSim (Sim F h0) (freeBuckets bk n x hm) (freeBuckets bk n x hr)
  | 0, _, _, _, h => CSim.ok h
  | n + 1, x, _, _, h => (freeNodes_sim (bk x) h).bind fun _ _ h => freeBuckets_sim bk n (x + 1) h

theorem threadEnd_sim (h : StSim F h0 s s') : CSim (PSim F h0) (threadEnd s) (threadEnd s') := by
  unfold threadEnd
  rw [h.2.1, h.2.2]
  cases s.main with
  | none => exact CSim.ok ⟨rfl, h⟩
  | some m =>
    refine (freeBuckets_sim s.bk m 0 h.1).bind fun x y hs => ?_
    exact CSim.ok ⟨rfl, hs, rfl, rfl⟩

end Verif.Tls
