import Verif.Tls.Scope
import Verif.Tls.Props

/-!
# `TLS::AutoFree` gives back its block exactly once (C130)
-/

namespace Verif.Tls.Scope
open Spec

/-- All blocks in use, according to all calls. -/
def live (w : World) : Live := afterAll Live.none (w.log.map (·.2))

/-- The blocks in use according to the calls the program makes itself: blocks without a guard. -/
def own (w : World) : Live := afterAll Live.none ((w.log.filter (·.1)).map (·.2))

/-- How often a guard was made for the pointer. -/
def made (p : Ptr) (log : List (Bool × Op × Out)) : Nat := log.countP fun x => match x with
  | (false, .malloc _ _, .ptr q) => decide (q = p)
  | _ => false

/-- How often a destructor freed the pointer. -/
def freed (p : Ptr) (log : List (Bool × Op × Out)) : Nat := log.countP fun x => match x with
  | (false, .free q _, _) => decide (q = p)
  | _ => false

/-- The call does not free or reallocate a block that has a guard. -/
def Spares (gs : List Ptr) : Op → Prop
  | .free p _ => p = .null ∨ p ∉ gs
  | .realloc _ p _ _ => p = .null ∨ p ∉ gs
  | _ => True

/-- The next command keeps to the rules of the allocator (C40). -/
def Fair (m K : Nat) (w : World) (a : Act) : Prop :=
  match w.frames with
  | ⟨.work :: _, _⟩ :: _ => ∀ op, a.op = some op → Valid m K (live w) op ∧ Spares (guards w.frames) op
  | ⟨.auto n _ :: _, _⟩ :: _ => Valid m K (live w) (.malloc a.ok n)
  | _ => True

/-- All commands do. -/
def FairRun (m K : Nat) : World → List Act → Prop
  | _, [] => True
  | w, a :: as => Fair m K w a ∧ ∀ w', advance w a = .ok w' → FairRun m K w' as

theorem afterAll_append (l : Live) : ∀ (h : List (Op × Out)) (op : Op) (out : Out), afterAll l (h ++ [(op, out)]) = after (afterAll l h) op out := by
  intro h
  induction h generalizing l with
  | nil => intros; rfl
  | cons x h ih => intro op out; exact ih _ op out

/-- Guarded blocks are in use and not the program's own; all others in use are. -/
structure Q (gs : List Ptr) (full mine : Live) : Prop where
  grd : ∀ b, .blk b ∈ gs → full b ≠ none ∧ mine b = none
  rest : ∀ b, .blk b ∉ gs → full b = mine b
  shape : ∀ p ∈ gs, p = .null ∨ ∃ b, p = .blk b
  nd : (gs.filter (· ≠ .null)).Nodup

theorem Q.put {gs : List Ptr} {full mine : Live} (q : Q gs full mine) {b : Nat} (hb : Ptr.blk b ∉ gs) (x : Option (List (Option UInt8))) :
    Q gs (put full b x) (put mine b x) := by
  refine ⟨fun c hc => ?_, fun c hc => ?_, q.shape, q.nd⟩
  · have : c ≠ b := fun e => hb (e ▸ hc)
    simp only [Spec.put, if_neg this]
    exact q.grd c hc
  · simp only [Spec.put]
    split
    · rfl
    · exact q.rest c hc

/-- A call of the program. -/
theorem Q.call {m K : Nat} {gs : List Ptr} {full mine : Live} (q : Q gs full mine) {op : Op} {out : Out} (hv : Valid m K full op) (hg : Good full op out)
    (hs : Spares gs op) : Q gs (after full op out) (after mine op out) := by
  have fresh : ∀ {b : Nat}, full b = none → Ptr.blk b ∉ gs := fun h hc => (q.grd _ hc).1 h
  cases op with
  | malloc ok n =>
    cases out with
    | ptr r =>
      rcases hg with ⟨rfl, -⟩ | ⟨b, rfl, h1, -⟩
      · exact q
      · exact q.put (fresh h1) _
    | unit => cases hg
    | cell c => cases hg
  | realloc ok p n c =>
    cases p with
    | null =>
      cases out with
      | ptr r =>
        rcases hg with ⟨rfl, -⟩ | ⟨b, rfl, h1, -⟩
        · exact q
        · exact q.put (fresh h1) _
      | unit => cases hg
      | cell c => cases hg
    | one => cases out <;> cases hg
    | blk b =>
      have hb : Ptr.blk b ∉ gs := hs.resolve_left (fun h => nomatch h)
      have e : mine b = full b := (q.rest b hb).symm
      have hu : full b ≠ none := by
        rcases hv.2.2 with h | ⟨b', h, h'⟩
        · cases h
        · cases h; exact h'
      cases out with
      | ptr r =>
        cases hf : full b with
        | none => exact absurd hf hu
        | some cs =>
          rcases hg with ⟨-, rfl⟩ | ⟨-, b', rfl, h⟩
          · simp only [after, e, hf]
            exact q.put hb _
          · have hb' : Ptr.blk b' ∉ gs := by
              rcases h with rfl | h
              · exact hb
              · exact fresh h
            simp only [after, e, hf]
            exact (q.put hb _).put hb' _
      | unit => cases hg
      | cell c => cases hg
  | free p c =>
    cases p with
    | null => exact q
    | one => exact q
    | blk b => exact q.put (hs.resolve_left (fun h => nomatch h)) _
  | peek p i => exact q
  | poke p i v =>
    cases p with
    | null => exact q
    | one => exact q
    | blk b =>
      by_cases hb : Ptr.blk b ∈ gs
      · obtain ⟨h1, h2⟩ := q.grd b hb
        cases hf : full b with
        | none => exact absurd hf h1
        | some cs =>
          simp only [after, hf, h2]
          refine ⟨fun c hc => ?_, fun c hc => ?_, q.shape, q.nd⟩
          · refine ⟨?_, (q.grd c hc).2⟩
            simp only [Spec.put]
            split
            · simp
            · exact (q.grd c hc).1
          · have : c ≠ b := fun e => hc (e ▸ hb)
            simp only [Spec.put, if_neg this]
            exact q.rest c hc
      · have e : mine b = full b := (q.rest b hb).symm
        cases hf : full b with
        | none => simp only [after, e, hf]; exact q
        | some cs => simp only [after, e, hf]; exact q.put hb _

/-- A guard is constructed. -/
theorem Q.guard {gs : List Ptr} {full mine : Live} (q : Q gs full mine) {ok : Bool} {n : Nat} {p : Ptr} (hg : Served full ok n p) :
    Q (p :: gs) (after full (.malloc ok n) (.ptr p)) mine := by
  rcases hg with ⟨rfl, -⟩ | ⟨b, rfl, h1, -⟩
  · refine ⟨fun b hb => q.grd b (by simpa using hb), fun b hb => q.rest b (by simpa using hb), fun p hp => ?_, by simpa using q.nd⟩
    rcases List.mem_cons.1 hp with rfl | hp
    · exact Or.inl rfl
    · exact q.shape p hp
  · have hb : Ptr.blk b ∉ gs := fun hc => (q.grd _ hc).1 h1
    refine ⟨fun c hc => ?_, fun c hc => ?_, fun p hp => ?_, ?_⟩
    · simp only [after, Spec.put]
      split
      · rename_i e
        subst e
        exact ⟨by simp, by rw [← q.rest c hb]; exact h1⟩
      · rename_i e
        exact q.grd c ((List.mem_cons.1 hc).resolve_left (fun h => e (by cases h; rfl)))
    · have hc := not_or.1 (fun h => hc (List.mem_cons.2 h))
      simp only [after, Spec.put]
      rw [if_neg (fun e => hc.1 (by rw [e]))]
      exact q.rest c hc.2
    · rcases List.mem_cons.1 hp with rfl | hp
      · exact Or.inr ⟨b, rfl⟩
      · exact q.shape p hp
    · rw [List.filter_cons_of_pos (by simp), List.nodup_cons]
      exact ⟨fun h => hb (List.mem_filter.1 h).1, q.nd⟩

/-- A guard is destroyed. -/
theorem Q.unguard {gs : List Ptr} {full mine : Live} {p : Ptr} {out : Out} (q : Q (p :: gs) full mine) : Q gs (after full (.free p true) out) mine := by
  have shape : ∀ p ∈ gs, p = .null ∨ ∃ b, p = .blk b := fun x hx => q.shape x (List.mem_cons_of_mem _ hx)
  rcases q.shape p List.mem_cons_self with rfl | ⟨b, rfl⟩
  · exact ⟨fun b hb => q.grd b (List.mem_cons_of_mem _ hb), fun b hb => q.rest b (by simpa using hb), shape, by simpa using q.nd⟩
  · have nd := q.nd
    rw [List.filter_cons_of_pos (by simp), List.nodup_cons] at nd
    have hb : Ptr.blk b ∉ gs := fun h => nd.1 (List.mem_filter.2 ⟨h, by simp⟩)
    refine ⟨fun c hc => ?_, fun c hc => ?_, shape, nd.2⟩
    · have : c ≠ b := fun e => hb (e ▸ hc)
      simp only [after, Spec.put, if_neg this]
      exact q.grd c (List.mem_cons_of_mem _ hc)
    · simp only [after, Spec.put]
      split
      · rename_i e
        subst e
        exact (q.grd c List.mem_cons_self).2.symm
      · rename_i e
        refine q.rest c (fun h => ?_)
        rcases List.mem_cons.1 h with h | h
        · cases h; exact e rfl
        · exact hc h

theorem guards_skip : ∀ (n : Nat) (fs : List Frame), guards (skip n fs) = guards fs
  | 0, [] => rfl
  | 0, _ :: _ => rfl
  | _ + 1, [] => rfl
  | n + 1, f :: fs => by
    have := guards_skip n fs
    unfold guards at this ⊢
    simp only [skip, List.filterMap_cons, this]

/-- The state of an execution. -/
structure Inv (m K : Nat) (w : World) : Prop where
  heap : ∃ le, Rel m K w.s le ∧ Knows (live w) le
  q : Q (guards w.frames) (live w) (own w)
  cnt : ∀ p, made p w.log = freed p w.log + (guards w.frames).count p

theorem Inv.frames {m K : Nat} {w : World} (h : Inv m K w) {fs : List Frame} (e : guards fs = guards w.frames) : Inv m K { w with frames := fs } :=
  ⟨h.heap, by show Q (guards fs) _ _; rw [e]; exact h.q, fun p => by show made p w.log = _; rw [h.cnt p, e]⟩

theorem live_snoc (s : St) (fs : List Frame) (log : List (Bool × Op × Out)) (b : Bool) (op : Op) (out : Out) :
    live ⟨s, fs, log ++ [(b, op, out)]⟩ = after (live ⟨s, fs, log⟩) op out := by
  unfold live
  rw [List.map_append]
  exact afterAll_append _ _ op out

theorem own_snoc (s : St) (fs : List Frame) (log : List (Bool × Op × Out)) (b : Bool) (op : Op) (out : Out) :
    own ⟨s, fs, log ++ [(b, op, out)]⟩ = if b then after (own ⟨s, fs, log⟩) op out else own ⟨s, fs, log⟩ := by
  unfold own
  cases b with
  | true =>
    rw [List.filter_append, List.map_append]
    exact afterAll_append _ _ op out
  | false =>
    rw [List.filter_append]
    simp

theorem Inv.advance {m K : Nat} (hm : m ≤ 31 ∨ K ≤ 31) {w : World} (h : Inv m K w) {a : Act} (hf : Fair m K w a) :
    ∃ w', advance w a = .ok w' ∧ Inv m K w' := by
  obtain ⟨s, frames, log⟩ := w
  obtain ⟨le, hr, hk⟩ := h.heap
  have q := h.q
  match frames with
  | [] => exact ⟨_, rfl, h⟩
  | ⟨[], none⟩ :: fs => exact ⟨_, rfl, h.frames rfl⟩
  | ⟨[], some p⟩ :: fs =>
    have q : Q (p :: guards fs) (live ⟨s, ⟨[], some p⟩ :: fs, log⟩) (own ⟨s, ⟨[], some p⟩ :: fs, log⟩) := q
    have hv : Valid m K (live ⟨s, ⟨[], some p⟩ :: fs, log⟩) (.free p true) := by
      rcases q.shape p List.mem_cons_self with rfl | ⟨b, rfl⟩
      · exact Or.inl rfl
      · exact Or.inr ⟨b, rfl, (q.grd b List.mem_cons_self).1⟩
    obtain ⟨out, s', le', e, hg, hr', hk'⟩ := step_ok hr hk _ hv (.inl hm)
    refine ⟨⟨s', fs, log ++ [(false, .free p true, out)]⟩, by simp only [Scope.advance, e, ok_bind], ⟨le', hr', ?_⟩, ?_, fun x => ?_⟩
    · rw [live_snoc]; exact hk'
    · rw [live_snoc, own_snoc]; exact q.unguard
    · have := h.cnt x
      simp only [made, freed, List.countP_append, guards, List.filterMap_cons, List.count_cons] at this ⊢
      by_cases c : p = x <;> simp [c] at this ⊢ <;> omega
  | ⟨.work :: cs, g⟩ :: fs =>
    cases ho : a.op with
    | none => exact ⟨⟨s, ⟨cs, g⟩ :: fs, log⟩, by simp only [Scope.advance, ho], h.frames (fs := ⟨cs, g⟩ :: fs) (by simp [guards, List.filterMap_cons])⟩
    | some op =>
      obtain ⟨hv, hs⟩ := hf op ho
      obtain ⟨out, s', le', e, hg, hr', hk'⟩ := step_ok hr hk op hv (.inl hm)
      refine ⟨⟨s', ⟨cs, g⟩ :: fs, log ++ [(true, op, out)]⟩, by simp only [Scope.advance, ho, e, ok_bind], ⟨le', hr', ?_⟩, ?_, fun x => ?_⟩
      · rw [live_snoc]; exact hk'
      · rw [live_snoc, own_snoc]
        have : guards (⟨.work :: cs, g⟩ :: fs) = guards (⟨cs, g⟩ :: fs) := by simp [guards, List.filterMap_cons]
        exact this ▸ q.call hv hg hs
      · have := h.cnt x
        simp only [made, freed, List.countP_append, guards, List.filterMap_cons] at this ⊢
        simpa using this
  | ⟨.branch x y :: cs, g⟩ :: fs => exact ⟨_, rfl, h.frames (by simp [guards, List.filterMap_cons])⟩
  | ⟨.loop body :: cs, g⟩ :: fs => exact ⟨_, rfl, h.frames (by cases a.choice <;> simp [guards, List.filterMap_cons])⟩
  | ⟨.auto n body :: cs, g⟩ :: fs =>
    obtain ⟨p, s', le', e, hr', hg, hk'⟩ := served_ok hr hk a.ok n hf.1 hf.2
    refine ⟨⟨s', ⟨body, some p⟩ :: ⟨cs, g⟩ :: fs, log ++ [(false, .malloc a.ok n, .ptr p)]⟩, by simp only [Scope.advance, e, ok_bind], ⟨le', hr', ?_⟩, ?_, fun x => ?_⟩
    · rw [live_snoc]
      cases p <;> exact hk'
    · rw [live_snoc, own_snoc]
      have : guards (⟨body, some p⟩ :: ⟨cs, g⟩ :: fs) = p :: guards (⟨.auto n body :: cs, g⟩ :: fs) := by simp [guards, List.filterMap_cons]
      show Q (guards (⟨body, some p⟩ :: ⟨cs, g⟩ :: fs)) _ _
      rw [this]
      exact q.guard hg
    · have e1 : guards (⟨body, some p⟩ :: ⟨cs, g⟩ :: fs) = p :: guards (⟨.auto n body :: cs, g⟩ :: fs) := by simp [guards, List.filterMap_cons]
      have := h.cnt x
      show made x _ = freed x _ + (guards (⟨body, some p⟩ :: ⟨cs, g⟩ :: fs)).count x
      rw [e1, List.count_cons]
      simp only [made, freed, List.countP_append] at this ⊢
      by_cases c : p = x <;> simp [c] at this ⊢ <;> omega
  | ⟨.leave n :: cs, g⟩ :: fs =>
    exact ⟨_, rfl, h.frames (by rw [guards_skip]; simp [guards, List.filterMap_cons])⟩

theorem Inv.exec {m K : Nat} (hm : m ≤ 31 ∨ K ≤ 31) : ∀ {as : List Act} {w : World}, Inv m K w → FairRun m K w as → ∃ w', exec w as = .ok w' ∧ Inv m K w'
  | [], w, h, _ => ⟨w, rfl, h⟩
  | a :: as, w, h, hf => by
    obtain ⟨w1, e1, h1⟩ := h.advance hm hf.1
    obtain ⟨w2, e2, h2⟩ := Inv.exec hm h1 (hf.2 w1 e1)
    exact ⟨w2, by show (Scope.advance w a >>= _) = _; rw [e1]; exact e2, h2⟩

/-- **C130.**  Every program with guards, every execution of it in which the calls keep to the rules of the allocator and the
program does not itself free or reallocate a guarded block: nothing undefined happens, also in the destructors.  At every moment the
blocks of the guards are in use, no two guards have the same block, and all other blocks in use were got without a guard; every
guard made so far has either freed its block or still exists; bytes read are those written last.  When all blocks of the program
have been left, only those are in use, and `ThreadEnd` returns everything else to the system. -/
theorem auto_free (m K : Nat) (hm : m ≤ 31 ∨ K ≤ 31) (hK : 3 ≤ K ∧ K ≤ 63) (body : List Cmd) (as : List Act) (hf : FairRun m K (start m body) as) :
    ∃ w, exec (start m body) as = .ok w
      ∧ (∀ p ∈ guards w.frames, p = .null ∨ ∃ b, p = .blk b ∧ live w b ≠ none ∧ own w b = none)
      ∧ ((guards w.frames).filter (· ≠ .null)).Nodup
      ∧ (∀ b, .blk b ∉ guards w.frames → live w b = own w b)
      ∧ (∀ p, made p w.log = freed p w.log + (guards w.frames).count p)
      ∧ (∀ b cs i v, live w b = some cs → cs[i]? = some (some v) → peek w.s (.blk b) i = .ok (some v))
      ∧ (w.frames = [] → live w = own w)
      ∧ ∃ s', threadEnd w.s = .ok (true, s') ∧ ∀ b, (∃ c, s'.heap.block b = .ok c) ↔ live w b ≠ none := by
  obtain ⟨hr, hk⟩ := init_rel m K hK
  have h0 : Inv m K (start m body) := by
    exact ⟨⟨_, hr, hk⟩, ⟨fun b hb => (by cases hb), fun b _ => rfl, fun p hp => (by cases hp), List.nodup_nil⟩, fun p => rfl⟩
  obtain ⟨w, e, h⟩ := h0.exec hm hf
  obtain ⟨le, hr, hk⟩ := h.heap
  obtain ⟨s', e1, h1, h2⟩ := threadEnd_ok hr
  refine ⟨w, e, fun p hp => ?_, h.q.nd, h.q.rest, h.cnt, fun b cs i v hb hi => ?_, fun hw => funext fun b => h.q.rest b (by rw [hw]; simp [guards]), s', e1, fun b => ⟨?_, fun hb => ?_⟩⟩
  · rcases h.q.shape p hp with rfl | ⟨b, rfl⟩
    · exact Or.inl rfl
    · exact Or.inr ⟨b, rfl, h.q.grd b hp⟩
  · have hl : i < cs.length := by
      rcases Nat.lt_or_ge i cs.length with c | c
      · exact c
      · rw [List.getElem?_eq_none c] at hi; cases hi
    obtain ⟨out, s1, -, e2, hg, -⟩ := step_ok hr hk (.peek (.blk b) i) ⟨b, cs, rfl, hb, hl⟩ (.inl hm)
    cases e3 : peek w.s (.blk b) i with
    | error u => simp [step, e3] at e2
    | ok c =>
      simp only [step, e3, ok_bind] at e2
      cases e2
      rw [hg cs v hb hi]
  · rintro ⟨c, hc⟩
    rw [ne_eq, hk.dom b]
    apply h2 b c
    unfold BHeap.block at hc
    split at hc
    · cases hc; assumption
    · cases hc
  · have hp : le b ≠ none := fun e => hb ((hk.dom b).2 e)
    obtain ⟨c, hc⟩ := Option.ne_none_iff_exists'.mp hp
    obtain ⟨z, _, e6, _⟩ := hr.live b c hc
    exact ⟨z, BHeap.block_ok (by rw [h1 b hp, e6])⟩

/-- A guard that is destroyed after `ThreadEnd` does nothing: after every valid history its block is never given back. -/
theorem guard_after_thread_end_leaks (m K : Nat) (hK : 3 ≤ K ∧ K ≤ 63) (ops : List Op) (h : List (Op × Out)) (s : St)
    (e : run (threadInit .empty m) ops = .ok (h, s)) (hv : AllValid m K Live.none h) (b : Nat) (hb : afterAll Live.none h b ≠ none) :
    ∃ s', threadEnd s = .ok (true, s') ∧ step s' (.free (.blk b) true) = .ok (.unit, s') ∧ ∃ c, s'.heap.block b = .ok c := by
  obtain ⟨s', e1, h1, -⟩ := thread_end m K hK ops h s e hv
  refine ⟨s', e1, ?_, (h1 b).2 hb⟩
  have : s'.main = none := by
    unfold threadEnd at e1
    cases hs : s.main with
    | none => rw [hs] at e1; cases e1
    | some k =>
      rw [hs] at e1
      dsimp only at e1
      cases hq : freeBuckets s.bk k 0 s.heap with
      | error u => rw [hq] at e1; cases e1
      | ok q => rw [hq] at e1; cases e1; rfl
  simp [step, free, this]

/-- A guarded block that is reallocated and moves is freed by `realloc` and by the guard: the second time its size mark is gone. -/
theorem realloc_under_guard : (do
    let w ← exec (start 4 [.auto 5 [.work]]) [⟨true, true, none⟩, ⟨true, true, some (.realloc true (.blk 0) 20 true)⟩]
    exec w [⟨true, true, none⟩]).map (fun w : World => w.log.length) = .error .uninit := by decide +kernel

/-- A program with two nested guards that is left from the inside; the acts keep to the rules, and in the end nothing is in use. -/
def sample : List Cmd := [.auto 5 [.work, .auto 100 [.leave 1, .work]], .work]

def sampleActs : List Act :=
  [⟨true, true, none⟩, ⟨true, true, some (.poke (.blk 0) 4 7)⟩, ⟨true, true, none⟩, ⟨true, true, none⟩, ⟨true, true, none⟩, ⟨true, true, none⟩, ⟨true, true, none⟩]

example : ((exec (start 4 sample) sampleActs).map fun w => (w.log.map (fun x => x.2.2), w.frames.length, w.s.heap.map (·.isSome))) =
    .ok ([.ptr (.blk 0), .unit, .ptr (.blk 1), .unit, .unit], 1, [true, false]) := by decide +kernel

example : FairRun 4 10 (start 4 sample) sampleActs := by
  refine ⟨⟨by decide, .inl rfl⟩, fun w1 e1 => ?_⟩
  cases e1
  refine ⟨fun op ho => ?_, fun w2 e2 => ?_⟩
  · cases ho
    exact ⟨⟨0, _, rfl, rfl, by decide⟩, trivial⟩
  cases e2
  refine ⟨⟨by decide, .inl rfl⟩, fun w3 e3 => ?_⟩
  cases e3
  refine ⟨trivial, fun w4 e4 => ?_⟩
  cases e4
  refine ⟨trivial, fun w5 e5 => ?_⟩
  cases e5
  refine ⟨trivial, fun w6 e6 => ?_⟩
  cases e6
  refine ⟨fun op ho => (nomatch ho), fun _ _ => trivial⟩

end Verif.Tls.Scope
