import Verif.FastFind.Hand
import Verif.FastFind.PropsReplace

/-!
# Property C119, second part: the blocks of a `FastReplace` object
-/

namespace Verif.FastFind

open Spec

set_option linter.unusedSectionVars false

variable {α : Type} [DecidableEq α]

namespace Spec

/-- What the caller knows: the pattern, the data, whether `FindNext` and `Replace` may be called, the match that was
reported last and not replaced yet, and whether the object holds a block of its own. -/
structure Caller (α : Type) where
  p : List α
  d : List α
  active : Bool
  found : Option Nat
  holds : Bool

/-- Before any call. -/
def Caller.init : Caller α := ⟨[], [], false, none, false⟩

end Spec

/-- How the caller keeps count, given what the call returned. -/
def Caller.next (g : Caller α) (r : Option Nat) : OwnOp α → Caller α
  | .setPattern p => { g with p := p, active := false, found := none, holds := false }
  | .setGrowth _ => g
  | .setExtra _ => g
  | .setData d res => { g with d := d, active := true, found := none, holds := res.isNone }
  | .findNext _ => { g with found := r }
  | .replace _ _ => { g with found := none }
  | .detach => { g with active := false, found := none, holds := false }
  | .free _ => g

/-- What the caller may do: new data only when the object holds no block of its own; searching only in data;
replacing only a match that was reported, passing over elements of the data; freeing only what was given to them. -/
def Legal (eq : α → α → Bool) (o : Own α) (g : Caller α) : OwnOp α → Prop
  | .setPattern p => p.length < 2 ^ 64
  | .setGrowth _ => True
  | .setExtra _ => True
  | .setData _ _ => g.holds = false
  | .findNext um => g.active = true ∧ (um = true → ∀ a b, eq a b = true ↔ a = b)
  | .replace _ post => g.active = true ∧ ∃ i, g.found = some i ∧ i + g.p.length + post ≤ g.d.length
  | .detach => True
  | .free b => b ∈ o.given

/-- A program, call by call. -/
def ownExec (eq : α → α → Bool) (alloc : Bool) : Own α → List (OwnOp α) → CRes (Own α)
  | o, [] => .ok o
  | o, op :: ops => do
    let (_, o) ← ownStep eq alloc o op
    ownExec eq alloc o ops

/-- Every call of the program is one the caller may make. -/
def LegalRun (eq : α → α → Bool) (alloc : Bool) : Own α → Caller α → List (OwnOp α) → Prop
  | _, _, [] => True
  | o, g, op :: ops => Legal eq o g op ∧ ∀ r o', ownStep eq alloc o op = .ok (r, o') → LegalRun eq alloc o' (Caller.next g r op) ops

/-! ### The blocks -/

/-- Every block that is there belongs to exactly one: the object or the caller. -/
structure Blocks (o : Own α) : Prop where
  own : ∀ b, o.blk = some (.own b) → o.live[b]? = some true ∧ b ∉ o.given ∧ o.r.allocated = true
  user : o.blk = some .user → o.r.allocated = false
  all : ∀ b, o.live[b]? = some true → b ∈ o.given ∨ o.blk = some (.own b)
  given : ∀ b ∈ o.given, o.live[b]? = some true
  nodup : o.given.Nodup

theorem release_ok {l : List Bool} {b : Nat} (h : l[b]? = some true) : release l b = .ok (l.set b false) := by
  unfold release; rw [if_pos h]

theorem set_live {l : List Bool} {b c : Nat} : (l.set b false)[c]? = some true ↔ l[c]? = some true ∧ c ≠ b := by
  rw [List.getElem?_set]
  split
  · rename_i h
    subst h
    constructor
    · split <;> simp
    · rintro ⟨_, h⟩; exact absurd rfl h
  · rename_i h
    exact ⟨fun h' => ⟨h', fun e => h e.symm⟩, fun h' => h'.1⟩

theorem push_live {l : List Bool} {c : Nat} : (l ++ [true])[c]? = some true ↔ l[c]? = some true ∨ c = l.length := by
  rcases Nat.lt_trichotomy c l.length with h | h | h
  · rw [List.getElem?_append_left h]
    exact ⟨.inl, fun h' => h'.elim id (fun e => by omega)⟩
  · subst h; simp
  · rw [List.getElem?_eq_none (by simp; omega), List.getElem?_eq_none (by omega)]
    exact ⟨(fun h => nomatch h), fun h' => h'.elim (fun h => nomatch h) (fun e => by omega)⟩

theorem live_lt {l : List Bool} {c : Nat} (h : l[c]? = some true) : c < l.length := (List.getElem?_eq_some_iff.1 h).1

theorem drop_blocks {o : Own α} (h : Blocks o) :
    ∃ o', drop o = .ok o' ∧ o'.r = o.r ∧ o'.given = o.given ∧ (∀ b, o'.blk ≠ some (.own b)) ∧
      (o.blk ≠ some .user → o'.blk = none) ∧ Blocks o' := by
  unfold drop
  match hb : o.blk with
  | none => exact ⟨o, rfl, rfl, rfl, (by simp [hb]), (fun _ => hb), h⟩
  | some .user => exact ⟨o, rfl, rfl, rfl, (by simp [hb]), (fun h => absurd rfl h), h⟩
  | some (.own b) =>
    obtain ⟨h1, h2, h3⟩ := h.own b hb
    dsimp only
    rw [if_pos h3, release_ok h1, ok_bind]
    refine ⟨_, rfl, rfl, rfl, (fun _ h => nomatch h), fun _ => rfl, (fun _ h => nomatch h), (fun h => nomatch h), fun c hc => ?_, fun c hc => ?_,
      h.nodup⟩
    · obtain ⟨hc, hne⟩ := set_live.1 hc
      rcases h.all c hc with h' | h'
      · exact .inl h'
      · rw [hb] at h'; cases h'; exact absurd rfl hne
    · exact set_live.2 ⟨h.given c hc, fun e => h2 (e ▸ hc)⟩

theorem move_blocks {o : Own α} {b : Nat} (h : Blocks o) (hb : o.blk = some (.own b)) :
    ∃ o', move o = .ok o' ∧ o'.r = o.r ∧ o'.given = o.given ∧ (∃ c, o'.blk = some (.own c)) ∧ Blocks o' := by
  unfold move
  obtain ⟨h1, h2, h3⟩ := h.own b hb
  rw [hb]
  dsimp only
  rw [release_ok h1, ok_bind]
  have hl : (o.live.set b false).length = o.live.length := by simp
  refine ⟨_, rfl, rfl, rfl, ⟨_, rfl⟩, fun c hc => ?_, (fun h => nomatch h), fun c hc => ?_, fun c hc => ?_, h.nodup⟩
  · cases hc
    refine ⟨push_live.2 (.inr hl.symm), fun hg => ?_, h3⟩
    have := live_lt (h.given _ hg)
    omega
  · rcases push_live.1 hc with hc | hc
    · obtain ⟨hc, hne⟩ := set_live.1 hc
      rcases h.all c hc with h' | h'
      · exact .inl h'
      · rw [hb] at h'; cases h'; exact absurd rfl hne
    · right; rw [hc, hl]
  · exact push_live.2 (.inl (set_live.2 ⟨h.given c hc, fun e => h2 (e ▸ hc)⟩))

/-- `Blocks` speaks of the members only through `allocated`. -/
theorem Blocks.members {o : Own α} (h : Blocks o) (r : Repl α) (hr : r.allocated = o.r.allocated) :
    Blocks { o with r := r } :=
  ⟨fun b hb => by obtain ⟨h1, h2, h3⟩ := h.own b hb; exact ⟨h1, h2, hr.trans h3⟩, fun hb => hr.trans (h.user hb), h.all,
    h.given, h.nodup⟩

/-! ### The members -/

/-- What holds of the members while there is data. -/
structure Mem (eq : α → α → Bool) (r : Repl α) (g : Caller α) (s : S α) : Prop where
  src : r.src = g.d
  srcEnd : r.srcEnd = g.d.length
  curr : r.srcCurr ≤ g.d.length
  live : s.live = true → s.d = g.d ∧ r.srcCurr ≤ s.cursor
  pos : r.dataPos ≤ r.dataSize
  size : r.dataSize ≤ r.buf.length
  found : ∀ i, g.found = some i → s.live = true ∧ s.cursor = i + 1 ∧ MatchAt eq g.p g.d i

theorem regrow_weak (alloc : Bool) (old : List (Option α)) (n c : Nat) (h : c ≤ n) :
    (∃ b, regrow alloc old n c = .ok b ∧ b.length = n) ∨ (alloc = false ∧ regrow alloc old n c = .error .oobRead) := by
  unfold regrow
  cases alloc with
  | true =>
    left
    refine ⟨_, rfl, ?_⟩
    simp; omega
  | false =>
    simp only [Bool.false_eq_true, if_false]
    unfold memcpyTo
    by_cases hc : c ≤ old.length
    · left
      rw [if_pos hc, if_pos (by simp; omega)]
      refine ⟨_, rfl, ?_⟩
      simp; omega
    · right
      rw [if_neg hc]
      exact ⟨trivial, rfl⟩

theorem memcpy_weak {β : Type} (b src : List β) (pos n : Nat) (h1 : n ≤ src.length) (h2 : pos + n ≤ b.length) :
    ∃ b', memcpyTo b pos src n = .ok b' ∧ b'.length = b.length := by
  unfold memcpyTo
  rw [if_pos h1, if_pos h2]
  refine ⟨_, rfl, ?_⟩
  simp; omega

theorem putSrc_weak (r : Repl α) (n : Nat) (h1 : r.srcCurr + n ≤ r.src.length) (h2 : r.dataPos + n ≤ r.buf.length) :
    ∃ b, putSrc r n = .ok { r with buf := b, dataPos := r.dataPos + n } ∧ b.length = r.buf.length := by
  unfold putSrc
  split
  · rename_i h0; subst h0; exact ⟨r.buf, rfl, rfl⟩
  · obtain ⟨b, e, hb⟩ := memcpy_weak r.buf ((r.src.drop r.srcCurr).map some) r.dataPos n (by simp; omega) h2
    rw [e, ok_bind]
    exact ⟨b, rfl, hb⟩

/-- What `FindNext` leaves of the members, whatever the search found. -/
theorem replFindNext_weak {eq : α → α → Bool} {alloc um : Bool} {r : Repl α} {np : Option Nat} {f : Find α}
    (hf : findNext eq um r.find = .ok (np, f)) (h1 : r.srcEnd = r.src.length) (h2 : r.srcCurr ≤ r.srcEnd)
    (h3 : r.dataPos ≤ r.dataSize) (h4 : r.dataSize ≤ r.buf.length) (h5 : ∀ i, np = some i → r.srcCurr ≤ i ∧ i ≤ r.srcEnd) :
    (∃ np' r', replFindNext eq alloc um r = .ok (np', r') ∧ (np' = np ∨ np' = none) ∧ r'.find = f ∧ r'.src = r.src ∧
      r'.srcEnd = r.srcEnd ∧ r'.srcCurr = r.srcCurr ∧ r'.allocated = r.allocated ∧ r'.dataPos ≤ r'.dataSize ∧
      r'.dataSize ≤ r'.buf.length) ∨
    (alloc = false ∧ replFindNext eq alloc um r = .error .oobRead) := by
  have hdist : r.srcCurr + ((match (generalizing := false) np with | none => r.srcEnd | some i => i) - r.srcCurr) ≤ r.src.length := by
    cases np with
    | none => dsimp only; omega
    | some i => obtain ⟨a, b⟩ := h5 i rfl; dsimp only; omega
  unfold replFindNext
  rw [hf]
  simp only [ok_bind]
  generalize (match (generalizing := false) np with | none => r.srcEnd | some i => i) - r.srcCurr = dist at hdist ⊢
  split
  · split
    · rename_i ha
      rcases regrow_weak alloc r.buf (r.dataPos + dist + (if np = none then 0 else r.growth) + r.extra)
        (r.dataPos + dist + (if np = none then 0 else r.growth)) (by omega) with ⟨b, e, hb⟩ | ⟨ha, e⟩
      · left
        rw [e, ok_bind]
        obtain ⟨b', e', hb'⟩ := putSrc_weak { r with find := f, buf := b, dataSize := r.dataPos + dist + (if np = none then 0 else r.growth) } dist
          hdist (by simp only; omega)
        rw [e', ok_bind]
        refine ⟨_, _, rfl, .inl rfl, rfl, rfl, rfl, rfl, rfl, ?_, ?_⟩
        · simp only; omega
        · simp only at hb' ⊢; omega
      · right
        rw [e]
        exact ⟨ha, rfl⟩
    · left
      rename_i hc ha
      obtain ⟨b', e', hb'⟩ := putSrc_weak { r with find := f } (r.dataSize - r.dataPos)
        (by
          simp only
          rcases hc with hc | hc
          · omega
          · exact absurd hc.1 ha) (by simp only; omega)
      rw [e', ok_bind]
      refine ⟨_, _, rfl, .inr rfl, rfl, rfl, rfl, rfl, rfl, ?_, ?_⟩
      · simp only; omega
      · simp only at hb' ⊢; omega
  · left
    rename_i hc
    obtain ⟨b', e', hb'⟩ := putSrc_weak { r with find := f } dist hdist (by simp only; omega)
    rw [e', ok_bind]
    refine ⟨_, _, rfl, .inl rfl, rfl, rfl, rfl, rfl, rfl, ?_, ?_⟩
    · simp only; omega
    · simp only at hb' ⊢; omega

theorem replPut_weak {alloc : Bool} {r : Repl α} (w : List α)
    (h3 : r.dataPos ≤ r.dataSize) (h4 : r.dataSize ≤ r.buf.length) :
    (∃ r', replPut alloc r w = .ok r' ∧ r'.find = r.find ∧ r'.src = r.src ∧ r'.srcEnd = r.srcEnd ∧ r'.allocated = r.allocated ∧
      r'.dataPos ≤ r'.dataSize ∧ r'.dataSize ≤ r'.buf.length) ∨
    (alloc = false ∧ replPut alloc r w = .error .oobRead) := by
  unfold replPut
  split
  · exact .inl ⟨r, rfl, rfl, rfl, rfl, rfl, h3, h4⟩
  · split
    · split
      · rename_i ha
        rcases regrow_weak alloc r.buf (r.dataPos + w.length + r.growth + r.extra) (r.dataSize + r.extra) (by omega) with
          ⟨b, e, hb⟩ | ⟨ha, e⟩
        · left
          dsimp only
          rw [e, ok_bind]
          obtain ⟨b', e', hb'⟩ := memcpy_weak b (w.map some) r.dataPos w.length (by simp) (by omega)
          rw [e', ok_bind]
          refine ⟨_, rfl, rfl, rfl, rfl, rfl, ?_, ?_⟩
          · simp only; omega
          · simp only; omega
        · right
          dsimp only
          rw [e]
          exact ⟨ha, rfl⟩
      · left
        obtain ⟨b', e', hb'⟩ := memcpy_weak r.buf (w.map some) r.dataPos (r.dataSize - r.dataPos) (by simp; omega) (by omega)
        rw [e', ok_bind]
        refine ⟨_, rfl, rfl, rfl, rfl, rfl, ?_, ?_⟩
        · simp only; omega
        · simp only; omega
    · left
      obtain ⟨b', e', hb'⟩ := memcpy_weak r.buf (w.map some) r.dataPos w.length (by simp) (by omega)
      rw [e', ok_bind]
      refine ⟨_, rfl, rfl, rfl, rfl, rfl, ?_, ?_⟩
      · simp only; omega
      · simp only; omega

/-! ### The program -/

/-- The object, what the caller knows, and the blocks agree. -/
structure Inv (eq : α → α → Bool) (o : Own α) (g : Caller α) : Prop where
  blocks : Blocks o
  holds : g.holds = false → ∀ b, o.blk ≠ some (.own b)
  mem : ∃ s : S α, Rel o.r.find s ∧ s.p = g.p ∧ (g.active = true → o.blk ≠ none ∧ Mem eq o.r g s)

theorem Inv.init (eq : α → α → Bool) : Inv eq (Own.init : Own α) Caller.init := by
  refine ⟨⟨(fun _ h => nomatch h), (fun h => nomatch h), (fun b h => by simp [Own.init] at h), (fun _ h => nomatch h), .nil⟩,
    (fun _ _ h => nomatch h), S.init, Rel.init, rfl, (fun h => nomatch h)⟩

theorem step_inv {eq : α → α → Bool} {alloc : Bool} {o : Own α} {g : Caller α} (h : Inv eq o g) (op : OwnOp α)
    (hl : Legal eq o g op) :
    (∃ r o', ownStep eq alloc o op = .ok (r, o') ∧ Inv eq o' (Caller.next g r op)) ∨
    (alloc = false ∧ ownStep eq alloc o op = .error .oobRead) := by
  obtain ⟨hB, hh, s, hs, hp, hm⟩ := h
  cases op with
  | setPattern p =>
    left
    obtain ⟨o', e, e1, e2, e3, e4, hB'⟩ := drop_blocks hB
    obtain ⟨f', e5, hs'⟩ := Rel.setPattern (f := o'.r.find) (s := s) eq p hl
    unfold ownStep ownSetPattern
    simp only [e, ok_bind, e5]
    exact ⟨_, _, rfl, hB'.members _ rfl, fun _ => e3, _, hs', rfl, (fun h => nomatch h)⟩
  | setGrowth n =>
    left
    refine ⟨_, _, rfl, hB.members _ rfl, hh, s, hs, hp, fun ha => ⟨(hm ha).1, ?_⟩⟩
    obtain ⟨m1, m2, m3, m4, m5, m6, m7⟩ := (hm ha).2
    exact ⟨m1, m2, m3, m4, m5, m6, m7⟩
  | setExtra n =>
    left
    refine ⟨_, _, rfl, hB.members _ rfl, hh, s, hs, hp, fun ha => ⟨(hm ha).1, ?_⟩⟩
    obtain ⟨m1, m2, m3, m4, m5, m6, m7⟩ := (hm ha).2
    exact ⟨m1, m2, m3, m4, m5, m6, m7⟩
  | setData d res =>
    left
    have hno := hh hl
    cases res with
    | none =>
      refine ⟨_, _, rfl, ⟨fun b hb => ?_, (fun h => nomatch h), fun b hb => ?_, fun b hb => ?_, hB.nodup⟩, (fun h => nomatch h),
        _, hs.setData d, hp, fun _ => ⟨(fun h => nomatch h), rfl, rfl, Nat.zero_le _, fun _ => ⟨rfl, Nat.zero_le _⟩,
          Nat.zero_le _, ?_, (fun _ h => nomatch h)⟩⟩
      · cases hb
        refine ⟨push_live.2 (.inr rfl), fun hg => ?_, rfl⟩
        have := live_lt (hB.given _ hg)
        omega
      · rcases push_live.1 hb with hb | hb
        · rcases hB.all b hb with h' | h'
          · exact .inl h'
          · exact absurd h' (hno b)
        · exact .inr (by rw [hb]; rfl)
      · exact push_live.2 (.inl (hB.given b hb))
      · simp [ownSetData, replSetData]
    | some u =>
      refine ⟨_, _, rfl, ⟨(fun _ h => nomatch h), fun _ => rfl, fun b hb => ?_, hB.given, hB.nodup⟩, (fun _ _ h => nomatch h),
        _, hs.setData d, hp, fun _ => ⟨(fun h => nomatch h), rfl, rfl, Nat.zero_le _, fun _ => ⟨rfl, Nat.zero_le _⟩,
          Nat.zero_le _, ?_, (fun _ h => nomatch h)⟩⟩
      · rcases hB.all b hb with h' | h'
        · exact .inl h'
        · exact absurd h' (hno b)
      · simp [ownSetData, replSetData]
  | findNext um =>
    obtain ⟨ha, hu⟩ := hl
    obtain ⟨hblk, hM⟩ := hm ha
    obtain ⟨np, s', hst⟩ := spec_total eq s .findNext (fun _ h => nomatch h) (fun _ h => nomatch h)
    obtain ⟨f', e, hs'⟩ := hs.findNext eq um hu hst
    have hnp : ∀ i, np = some i → s.live = true ∧ s.cursor ≤ i ∧ MatchAt eq s.p s.d i ∧ s' = { s with cursor := i + 1 } := by
      intro i hi
      subst hi
      cases hst with
      | found _ hl hc hm' hf => exact ⟨hl, hc, hm', rfl⟩
    have hs's : s'.p = s.p ∧ (s'.live = true → s.live = true ∧ s'.d = s.d ∧ s.cursor ≤ s'.cursor) := by
      cases hst with
      | found i hl hc hm' hf => exact ⟨rfl, fun h => ⟨hl, rfl, by simp only; omega⟩⟩
      | notFound hl hf => exact ⟨rfl, (fun h => nomatch h)⟩
      | ended hl => exact ⟨rfl, fun h => ⟨h, rfl, Nat.le_refl _⟩⟩
    change (∃ r o', ownFindNext eq alloc um o = .ok (r, o') ∧ Inv eq o' (Caller.next g r (.findNext um))) ∨
      (alloc = false ∧ ownFindNext eq alloc um o = .error .oobRead)
    unfold ownFindNext
    rw [if_neg hblk, e]
    simp only [ok_bind]
    rcases replFindNext_weak (alloc := alloc) e (hM.srcEnd.trans (by rw [hM.src])) (by rw [hM.srcEnd]; exact hM.curr) hM.pos hM.size
      (by
        intro i hi
        obtain ⟨h1, h2, h3, _⟩ := hnp i hi
        have h4 := hM.live h1
        have := h3.1
        rw [h4.1] at this
        rw [hM.srcEnd]
        omega) with ⟨np', r', e', q1, q2, q3, q4, q5, q6, q7, q8⟩ | ⟨ha, e'⟩
    · left
      rw [e', ok_bind]
      have hmem : ∃ t : S α, Rel r'.find t ∧ t.p = g.p ∧ Mem eq r' { g with found := np' } t := by
        refine ⟨s', by rw [q2]; exact hs', hs's.1.trans hp, q3.trans hM.src, q4.trans hM.srcEnd, by rw [q5]; exact hM.curr, fun hl => ?_,
          q7, q8, fun i hi => ?_⟩
        · obtain ⟨h1, h2, h3⟩ := hs's.2 hl
          obtain ⟨h4, h5⟩ := hM.live h1
          exact ⟨h2.trans h4, by rw [q5]; omega⟩
        · simp only at hi
          have : np = some i := by
            rcases q1 with q1 | q1
            · rw [← q1]; exact hi
            · rw [hi] at q1; cases q1
          obtain ⟨h1, h2, h3, h4⟩ := hnp i this
          subst h4
          refine ⟨h1, rfl, ?_⟩
          rw [← hp, ← (hM.live h1).1]
          exact h3
      obtain ⟨t, t1, t2, t3⟩ := hmem
      by_cases hmv : movesAt o.r np = true
      · rw [if_pos hmv]
        have hal : o.r.allocated = true := by
          unfold movesAt at hmv
          simp only [Bool.and_eq_true] at hmv
          exact hmv.1
        obtain ⟨b, hb⟩ : ∃ b, o.blk = some (.own b) := by
          match hb : o.blk with
          | none => exact absurd hb hblk
          | some .user => rw [hB.user hb] at hal; cases hal
          | some (.own b) => exact ⟨b, rfl⟩
        obtain ⟨o', e2, g1, g2, ⟨c, g3⟩, hB'⟩ := move_blocks hB hb
        rw [e2, ok_bind]
        exact ⟨_, _, rfl, hB'.members _ (by rw [q6, g1]), (fun hf => absurd hb (hh hf b)), t, t1, t2, fun _ => ⟨by simp [g3], t3⟩⟩
      · rw [if_neg hmv]
        simp only [ok_bind]
        exact ⟨_, _, rfl, hB.members _ q6, hh, t, t1, t2, fun _ => ⟨hblk, t3⟩⟩
    · right
      rw [e']
      exact ⟨ha, rfl⟩
  | replace w post =>
    obtain ⟨ha, i, hfi, hbd⟩ := hl
    obtain ⟨hblk, hM⟩ := hm ha
    obtain ⟨hlive, hcur, hmat⟩ := hM.found i hfi
    obtain ⟨hd, hsc⟩ := hM.live hlive
    have hpne : s.p ≠ [] := fun e => by have := (hs.empty e).2.2; rw [hlive] at this; cases this
    have hpl : 0 < s.p.length := List.length_pos_iff.2 hpne
    have hbd' : s.cursor + (s.p.length - 1) + post ≤ s.d.length := by rw [hd, hcur, hp]; rw [hp] at hpl; omega
    obtain ⟨f', e, hs'⟩ := hs.skip eq post (.skip s post hlive hbd')
    have hc : s.cursor + (s.p.length - 1) + post = i + g.p.length + post := by rw [hcur, hp]; rw [hp] at hpl; omega
    have key : (∃ o', ownReplace alloc o w post = .ok o' ∧ Inv eq o' { g with found := none }) ∨
        (alloc = false ∧ ownReplace alloc o w post = .error .oobRead) := by
     unfold ownReplace
     rw [if_neg hblk]
     rcases replPut_weak (alloc := alloc) w hM.pos hM.size with ⟨r', e', q2, q3, q4, q6, q7, q8⟩ | ⟨ha, e'⟩
     · left
       have hrep : replaceAt alloc o.r w post = .ok { r' with find := f', srcCurr := i + g.p.length + post } := by
         unfold replaceAt
         rw [e', ok_bind, q2, e]
         simp only [ok_bind, ptr]
         rw [q4, hM.srcEnd, hc, if_neg (by omega)]
       simp only [hrep, ok_bind]
       have hmem : Mem eq { r' with find := f', srcCurr := i + g.p.length + post } { g with found := none }
           { s with
             cursor := s.cursor + (s.p.length - 1) + post,
             live := decide (s.cursor + (s.p.length - 1) + post + s.p.length ≤ s.d.length) } :=
         ⟨q3.trans hM.src, q4.trans hM.srcEnd, hbd, fun _ => ⟨hd, by simp only; omega⟩, q7, q8, (fun _ h => nomatch h)⟩
       split
       · rename_i hmv
         have hal : o.r.allocated = true := by
           simp only [Bool.and_eq_true] at hmv
           exact hmv.1.1
         obtain ⟨b, hb⟩ : ∃ b, o.blk = some (.own b) := by
           match hb : o.blk with
           | none => exact absurd hb hblk
           | some .user => rw [hB.user hb] at hal; cases hal
           | some (.own b) => exact ⟨b, rfl⟩
         obtain ⟨o', e2, g1, g2, ⟨c, g3⟩, hB'⟩ := move_blocks hB hb
         rw [e2]
         simp only [ok_bind]
         exact ⟨_, rfl, hB'.members _ (by rw [g1]; exact q6), (fun hf => absurd hb (hh hf b)), _, hs', hp, fun _ => ⟨by simp [g3], hmem⟩⟩
       · exact ⟨_, rfl, hB.members _ q6, hh, _, hs', hp, fun _ => ⟨hblk, hmem⟩⟩
     · right
       have hrep : replaceAt alloc o.r w post = .error .oobRead := by
         unfold replaceAt
         rw [e']; rfl
       simp only [hrep]
       exact ⟨ha, rfl⟩
    change (∃ r o', (ownReplace alloc o w post >>= fun o => .ok (none, o)) = .ok (r, o') ∧ Inv eq o' { g with found := none }) ∨
      (alloc = false ∧ (ownReplace alloc o w post >>= fun o => .ok (none, o)) = .error .oobRead)
    rcases key with ⟨o', e, h⟩ | ⟨ha, e⟩
    · exact .inl ⟨none, o', by rw [e]; rfl, h⟩
    · exact .inr ⟨ha, by rw [e]; rfl⟩
  | detach =>
    left
    refine ⟨_, _, rfl, ?_, ?_, s, ?_, hp, (fun h => nomatch h)⟩
    · unfold ownDetach
      match hb : o.blk with
      | none =>
        refine ⟨(fun _ h => nomatch h), (fun h => nomatch h), fun b h => ?_, hB.given, hB.nodup⟩
        rcases hB.all b h with h' | h'
        · exact .inl h'
        · rw [hb] at h'; cases h'
      | some .user =>
        refine ⟨(fun _ h => nomatch h), (fun h => nomatch h), fun b h => ?_, hB.given, hB.nodup⟩
        rcases hB.all b h with h' | h'
        · exact .inl h'
        · rw [hb] at h'; cases h'
      | some (.own c) =>
        obtain ⟨h1, h2, h3⟩ := hB.own c hb
        refine ⟨(fun _ h => nomatch h), (fun h => nomatch h), fun b h => ?_, fun b h => ?_, List.nodup_cons.2 ⟨h2, hB.nodup⟩⟩
        · rcases hB.all b h with h' | h'
          · exact .inl (List.mem_cons_of_mem _ h')
          · rw [hb] at h'; cases h'; exact .inl List.mem_cons_self
        · rcases List.mem_cons.1 h with rfl | h'
          · exact h1
          · exact hB.given b h'
    · intro _ b h
      unfold ownDetach at h
      match hb : o.blk with
      | none => rw [hb] at h; cases h
      | some .user => rw [hb] at h; cases h
      | some (.own c) => rw [hb] at h; cases h
    · unfold ownDetach
      match hb : o.blk with
      | none => exact hs
      | some .user => exact hs
      | some (.own c) => exact hs
  | free b =>
    left
    have hb : o.live[b]? = some true := hB.given b hl
    refine ⟨none, { o with live := o.live.set b false, given := o.given.erase b }, ?_, ⟨fun c hc => ?_, hB.user, fun c hc => ?_, fun c hc => ?_, hB.nodup.erase b⟩, hh, s, hs, hp, hm⟩
    · change (release o.live b >>= fun l => .ok (none, { o with live := l, given := o.given.erase b })) = _
      rw [release_ok hb]; rfl
    · obtain ⟨h1, h2, h3⟩ := hB.own c hc
      exact ⟨set_live.2 ⟨h1, fun e => h2 (e ▸ hl)⟩, fun h => h2 (List.mem_of_mem_erase h), h3⟩
    · obtain ⟨h1, hne⟩ := set_live.1 hc
      rcases hB.all c h1 with h' | h'
      · exact .inl ((List.mem_erase_of_ne hne).2 h')
      · exact .inr h'
    · have hm' := List.mem_of_mem_erase hc
      exact set_live.2 ⟨hB.given c hm', fun e => (hB.nodup.not_mem_erase (e ▸ hc))⟩

theorem exec_inv {eq : α → α → Bool} {alloc : Bool} : ∀ (ops : List (OwnOp α)) (o : Own α) (g : Caller α), Inv eq o g →
    LegalRun eq alloc o g ops →
    (∃ o' g', ownExec eq alloc o ops = .ok o' ∧ Inv eq o' g') ∨ (alloc = false ∧ ownExec eq alloc o ops = .error .oobRead)
  | [], o, g, h, _ => .inl ⟨o, g, rfl, h⟩
  | op :: ops, o, g, h, hl => by
    rcases step_inv (alloc := alloc) h op hl.1 with ⟨r, o', e, h'⟩ | ⟨ha, e⟩
    · rw [ownExec, e]
      exact exec_inv ops o' _ h' (hl.2 r o' e)
    · right
      rw [ownExec, e]
      exact ⟨ha, rfl⟩

/-- **C119, memory.**  In every program that keeps to the rules, no block is freed twice or used after it was freed, and
when the object is destroyed exactly the blocks `DetachData` gave to the caller (and they have not freed) are left.  The plain classes may
instead stop at the read beyond a block known from C29. -/
theorem blocks_partial (eq : α → α → Bool) (alloc : Bool) (ops : List (OwnOp α))
    (h : LegalRun eq alloc Own.init Caller.init ops) :
    (∃ o o', ownExec eq alloc Own.init ops = .ok o ∧ ownDestroy o = .ok o' ∧ o'.given = o.given ∧ o'.given.Nodup ∧
      (∀ b, o'.live[b]? = some true ↔ b ∈ o'.given) ∧ ∀ b, o.blk = some (.own b) → o.live[b]? = some true ∧ b ∉ o.given) ∨
    (alloc = false ∧ ownExec eq alloc Own.init ops = .error .oobRead) := by
  rcases exec_inv (alloc := alloc) ops Own.init Caller.init (Inv.init eq) h with ⟨o, g, e, hB, -⟩ | h'
  · left
    obtain ⟨o', e', e1, e2, e3, e4, hB'⟩ := drop_blocks hB
    refine ⟨o, o', e, e', e2, hB'.nodup, fun b => ⟨fun hb => ?_, hB'.given b⟩, fun b hb => ⟨(hB.own b hb).1, (hB.own b hb).2.1⟩⟩
    rcases hB'.all b hb with h1 | h1
    · exact h1
    · exact absurd h1 (e3 b)
  · exact .inr h'

/-- A program that replaces a match, lets the block grow, takes it and frees it, and sets new data. -/
def sampleProgram : List (OwnOp Nat) :=
  [.setPattern [1], .setGrowth 0, .setData [5, 1, 6] none, .findNext false, .replace [7, 7, 7] 1, .findNext false, .detach,
   .free 2, .setData [1, 1] none]

example : LegalRun (· == ·) true Own.init Caller.init sampleProgram := by
  refine ⟨(by decide : [1].length < 2 ^ 64), fun r o' e => ?_⟩; cases e
  refine ⟨trivial, fun r o' e => ?_⟩; cases e
  refine ⟨rfl, fun r o' e => ?_⟩; cases e
  refine ⟨⟨rfl, (fun h => nomatch h)⟩, fun r o' e => ?_⟩; cases e
  refine ⟨⟨rfl, 1, rfl, by decide⟩, fun r o' e => ?_⟩; cases e
  refine ⟨⟨rfl, (fun h => nomatch h)⟩, fun r o' e => ?_⟩; cases e
  refine ⟨trivial, fun r o' e => ?_⟩; cases e
  refine ⟨(by decide : 2 ∈ ([2] : List Nat)), fun r o' e => ?_⟩; cases e
  exact ⟨rfl, fun _ _ _ => trivial⟩

example : (ownExec (· == ·) true Own.init sampleProgram).map (fun o => (o.live, o.given)) =
    .ok ([false, false, false, true], []) := by decide

/-- **C119, negation.**  The rule about new data is needed: after any program that leaves the object with a block of its
own, `SetData` loses that block; it is neither freed by the destructor nor given to the caller. -/
theorem new_data_leaks (eq : α → α → Bool) (alloc : Bool) (ops : List (OwnOp α)) (o : Own α) (b : Nat)
    (h : LegalRun eq alloc Own.init Caller.init ops) (e : ownExec eq alloc Own.init ops = .ok o) (hb : o.blk = some (.own b))
    (d : List α) (res : Option (List (Option α))) :
    ∃ o', (ownExec eq alloc Own.init (ops ++ [.setData d res])) = .ok (ownSetData o d res) ∧
      ownDestroy (ownSetData o d res) = .ok o' ∧ o'.live[b]? = some true ∧ b ∉ o'.given := by
  rcases exec_inv (alloc := alloc) ops Own.init Caller.init (Inv.init eq) h with ⟨o1, g, e1, hB, -⟩ | ⟨_, h'⟩
  · rw [e] at e1; cases e1
    obtain ⟨h1, h2, h3⟩ := hB.own b hb
    have happ : ∀ (ops : List (OwnOp α)) (o0 : Own α), ownExec eq alloc o0 ops = .ok o →
        ownExec eq alloc o0 (ops ++ [.setData d res]) = .ok (ownSetData o d res) := by
      intro ops
      induction ops with
      | nil => intro o0 h; cases h; rfl
      | cons op ops ih =>
        intro o0 h
        rw [List.cons_append, ownExec]
        rw [ownExec] at h
        match hst : ownStep eq alloc o0 op with
        | .error _ => rw [hst] at h; cases h
        | .ok (r, o1) =>
          rw [hst] at h
          exact ih o1 h
    have hne : b ≠ o.live.length := by have := live_lt h1; omega
    cases res with
    | none =>
      refine ⟨{ ownSetData o d none with blk := none, live := (o.live ++ [true]).set o.live.length false }, happ ops _ e, ?_, ?_, ?_⟩
      · change (release (o.live ++ [true]) o.live.length >>= fun l => .ok { ownSetData o d none with blk := none, live := l }) = _
        rw [release_ok (push_live.2 (.inr rfl)), ok_bind]
      · exact set_live.2 ⟨push_live.2 (.inl h1), hne⟩
      · exact h2
    | some u => exact ⟨_, happ ops _ e, rfl, h1, h2⟩
  · rw [e] at h'; cases h'

end Verif.FastFind
