import Verif.Guard.Rw
import Verif.Guard.Props
import Verif.RwLock.PropsFull

/-! # C123: threads that use guards exclude each other, without any assumption on their calls -/

namespace Verif.Guard
open Verif.RwLock (Label setAt)
open Verif.RwLock.Spec

/-! ## Histories of the lock, label by label -/

/-- The labels of an execution with paired calls. -/
def Lab (ls : List Label) : Prop := ∃ bs, (RwLock.exec false RwLock.init bs).2 = ls

theorem one_label (f : Bool) (s : RwLock.S) (a : RwLock.Act) (s' : RwLock.S) (ls : List Label)
    (h : RwLock.step f s a = some (s', ls)) : ls.length ≤ 1 := by
  cases a <;> simp only [RwLock.step] at h
  case run t =>
    unfold RwLock.run at h
    split at h <;> (try split at h) <;> first | (cases h; done) | (cases h; simp [RwLock.retRead, RwLock.retWrite])
  case fail t =>
    unfold RwLock.fail at h
    split at h <;> first | (cases h; done) | (cases h; simp)
  all_goals split at h <;> first | (cases h; done) | (cases h; simp)

theorem Lab.prefix {p q : List Label} (h : Lab (p ++ q)) : Lab p := by
  obtain ⟨bs, h⟩ := h
  have key : ∀ (bs : List RwLock.Act) (s : RwLock.S) (p q : List Label), (RwLock.exec false s bs).2 = p ++ q →
      ∃ cs, (RwLock.exec false s cs).2 = p := by
    intro bs
    induction bs with
    | nil => intro s p q h; exact ⟨[], by cases p <;> first | rfl | cases h⟩
    | cons a as ih =>
      intro s p q h
      rw [RwLock.exec] at h
      cases hs : RwLock.step false s a with
      | none => rw [hs] at h; exact ih s p q h
      | some x =>
        obtain ⟨s', l⟩ := x
        rw [hs] at h
        dsimp only at h
        have hl := one_label _ _ _ _ _ hs
        cases p with
        | nil => exact ⟨[], rfl⟩
        | cons y p =>
          match l, hl with
          | [], _ =>
            obtain ⟨cs, e⟩ := ih s' (y :: p) q h
            exact ⟨a :: cs, by rw [RwLock.exec, hs]; exact e⟩
          | [z], _ =>
            rw [List.cons_append, List.nil_append, List.cons_append] at h
            obtain ⟨e1, e2⟩ := List.cons.inj h
            obtain ⟨cs, e⟩ := ih s' p q e2
            exact ⟨a :: cs, by rw [RwLock.exec, hs]; dsimp only; rw [e, e1]; rfl⟩
  exact key bs _ p q h

theorem phase_app (t : Nat) (p q : List Label) (x : Option Phase) : phase t x (p ++ q) = phase t (phase t x p) q := by
  induction p generalizing x with
  | nil => rfl
  | cons l p ih => exact ih _

theorem reading_app (t : Nat) (p q : List Label) (n : Nat) : reading t n (p ++ q) = reading t (reading t n p) q := by
  induction p generalizing n with
  | nil => rfl
  | cons l p ih => cases l <;> (try rename_i r; cases r) <;> exact ih _

theorem writing_app (t : Nat) (p q : List Label) (b : Bool) : writing t b (p ++ q) = writing t (writing t b p) q := by
  induction p generalizing b with
  | nil => rfl
  | cons l p ih => cases l <;> (try rename_i r; cases r) <;> exact ih _

theorem Few.prefix {p q : List Label} (h : Few (p ++ q)) : Few p :=
  fun r hr => h r (hr.trans (List.prefix_append _ _))

/-- What one label does to one thread. -/
theorem Lab.move {p : List Label} {l : Label} (h : Lab (p ++ [l])) (hf : Few (p ++ [l])) (t : Nat) (hw : who l = t) :
    ∃ ph ph', phase t (some .out) p = some ph ∧ move ph l = some ph' ∧ phase t (some .out) (p ++ [l]) = some ph' ∧
      (ph = .entering → writing t false p = false) := by
  have hp := h.prefix
  have hfp := Few.prefix hf
  obtain ⟨bs, e⟩ := h
  obtain ⟨cs, e'⟩ := hp
  have h1 := (RwLock.linearizable_partial bs (by rw [e]; exact hf)).2 t
  rw [e, phase_app] at h1
  obtain ⟨R, W, tw, tc, hi, -, hph, hgh⟩ := RwLock.reach cs (by rw [e']; exact hfp)
  rw [e'] at hph hgh
  have hph := hph t
  have hgh := (hgh t).2
  rw [phase_app, hph]
  rw [hph] at h1
  simp only [phase, hw, if_true, Option.bind_some] at h1 ⊢
  obtain ⟨ph', e2⟩ := Option.isSome_iff_exists.1 h1
  refine ⟨_, ph', rfl, e2, e2, fun he => ?_⟩
  rw [← hgh]
  apply hi.nw t
  revert he
  cases (RwLock.exec false RwLock.init cs).1.pc t <;> (try rename_i r; cases r) <;> simp [RwLock.phOf, RwLock.ownW]

/-! ## Programs and labels -/

/-- Where the program is and where the thread is inside the lock. -/
def Match : Mode Way → Phase → Prop
  | .running, ph => ph = .out
  | .locking .read _ _, ph => ph = .reading ∨ ph = .entered
  | .locking .write _ _, ph => ph = .writing ∨ ph = .entering
  | .unlocking .read, ph => ph = .unreading ∨ ph = .unread
  | .unlocking .write, ph => ph = .unwriting ∨ ph = .unwritten

structure TI (x : T Way) (t : Nat) (pre : List Label) : Prop where
  rd : reading t 0 pre = (guards x.frames).count .read
  wr : (guards x.frames).count .write = if writing t false pre then 1 else 0
  ph : ∃ ph, phase t (some .out) pre = some ph ∧ Match x.mode ph

theorem TI.other {x : T Way} {t : Nat} {pre : List Label} {l : Label} (h : TI x t pre) (hl : who l ≠ t) : TI x t (pre ++ [l]) := by
  have e1 : reading t 0 (pre ++ [l]) = reading t 0 pre := by
    rw [reading_app]; cases l <;> (try rename_i r; cases r) <;> simp_all [reading, who]
  have e2 : writing t false (pre ++ [l]) = writing t false pre := by
    rw [writing_app]; cases l <;> (try rename_i r; cases r) <;> simp_all [writing, who]
  have e3 : phase t (some .out) (pre ++ [l]) = phase t (some .out) pre := by
    rw [phase_app]; simp [phase, hl]
  exact ⟨by rw [e1]; exact h.rd, by rw [e2]; exact h.wr, by rw [e3]; exact h.ph⟩

/-- Not a call. -/
def quiet : Label → Bool
  | .callRead _ | .callWrite _ | .callReadUnlock _ | .callWriteUnlock _ => false
  | _ => true

theorem back_other {th : Nat → T Way} {t u : Nat} {r : Bool} (h : u ≠ t) : back th t r u = th u := by
  unfold back
  cases returned (th t) r with
  | none => rfl
  | some x => simp [setAt, h]

theorem back_self {th : Nat → T Way} {t : Nat} {r : Bool} {x : T Way} {e : List (Ev Way)} (h : returned (th t) r = some (x, e)) :
    back th t r t = x := by
  unfold back
  rw [h]
  simp [setAt]

theorem Match.lockR {md : Mode Way} {ph : Phase} (h : Match md ph) (hp : ph = .reading ∨ ph = .entered) :
    ∃ b e, md = .locking .read b e := by
  cases md with
  | running => rcases hp with rfl | rfl <;> cases h
  | locking k b e => cases k with
    | read => exact ⟨b, e, rfl⟩
    | write => rcases hp with rfl | rfl <;> exact absurd h (by simp [Match])
  | unlocking k => cases k <;> rcases hp with rfl | rfl <;> exact absurd h (by simp [Match])

theorem Match.lockW {md : Mode Way} {ph : Phase} (h : Match md ph) (hp : ph = .writing ∨ ph = .entering) :
    ∃ b e, md = .locking .write b e := by
  cases md with
  | running => rcases hp with rfl | rfl <;> cases h
  | locking k b e => cases k with
    | write => exact ⟨b, e, rfl⟩
    | read => rcases hp with rfl | rfl <;> exact absurd h (by simp [Match])
  | unlocking k => cases k <;> rcases hp with rfl | rfl <;> exact absurd h (by simp [Match])

theorem Match.unR {md : Mode Way} {ph : Phase} (h : Match md ph) (hp : ph = .unreading ∨ ph = .unread) :
    md = .unlocking .read := by
  cases md with
  | running => rcases hp with rfl | rfl <;> cases h
  | locking k b e => cases k <;> rcases hp with rfl | rfl <;> exact absurd h (by simp [Match])
  | unlocking k => cases k with
    | read => rfl
    | write => rcases hp with rfl | rfl <;> exact absurd h (by simp [Match])

theorem Match.unW {md : Mode Way} {ph : Phase} (h : Match md ph) (hp : ph = .unwriting ∨ ph = .unwritten) :
    md = .unlocking .write := by
  cases md with
  | running => rcases hp with rfl | rfl <;> cases h
  | locking k b e => cases k <;> rcases hp with rfl | rfl <;> exact absurd h (by simp [Match])
  | unlocking k => cases k with
    | write => rfl
    | read => rcases hp with rfl | rfl <;> exact absurd h (by simp [Match])

theorem guards_some (c : List (Cmd Way)) (k : Way) (fs : List (Frame Way)) : guards (⟨c, some k⟩ :: fs) = k :: guards fs := rfl

theorem guards_none (c : List (Cmd Way)) (fs : List (Frame Way)) : guards (⟨c, none⟩ :: fs) = guards fs := rfl

theorem note_inv {th : Nat → T Way} {pre : List Label} {l : Label} (h : ∀ t, TI (th t) t pre) (hl : Lab (pre ++ [l]))
    (hf : Few (pre ++ [l])) (hq : quiet l = true) (t : Nat) : TI (note th l t) t (pre ++ [l]) := by
  by_cases hw : who l = t
  · obtain ⟨ph, ph', e1, e2, e3, he⟩ := hl.move hf t hw
    obtain ⟨ph0, f1, f2⟩ := (h t).ph
    rw [e1] at f1
    obtain rfl : ph = ph0 := by cases f1; rfl
    have hrd := (h t).rd
    have hwr := (h t).wr
    have hre := reading_app t pre [l] 0
    have hwe := writing_app t pre [l] false
    -- labels that do not end a call
    have silent : (∀ n, reading t n [l] = n) → (∀ b, writing t b [l] = b) → Match (th t).mode ph' → TI (th t) t (pre ++ [l]) :=
      fun a b c => ⟨by rw [hre, a]; exact hrd, by rw [hwe, b]; exact hwr, _, e3, c⟩
    cases l with
    | callRead u => cases hq
    | callWrite u => cases hq
    | callReadUnlock u => cases hq
    | callWriteUnlock u => cases hq
    | enterR u =>
      refine silent (fun _ => rfl) (fun _ => rfl) ?_
      cases ph <;> cases e2
      obtain ⟨b, e, hm⟩ := f2.lockR (.inl rfl)
      rw [hm]; exact .inr rfl
    | exitR u =>
      refine silent (fun _ => rfl) (fun _ => rfl) ?_
      cases ph <;> cases e2
      rw [f2.unR (.inl rfl)]; exact .inr rfl
    | enterW u =>
      refine silent (fun _ => rfl) (fun _ => rfl) ?_
      cases ph <;> cases e2
      obtain ⟨b, e, hm⟩ := f2.lockW (.inl rfl)
      rw [hm]; exact .inr rfl
    | exitW u =>
      refine silent (fun _ => rfl) (fun _ => rfl) ?_
      cases ph <;> cases e2
      rw [f2.unW (.inl rfl)]; exact .inr rfl
    | retRead u r =>
      obtain rfl : u = t := hw
      have hp : (ph = .reading ∨ ph = .entered) ∧ ph' = .out := by
        cases ph <;> cases r <;> first | (cases e2; done) | (cases e2; simp)
      obtain ⟨hp, rfl⟩ := hp
      obtain ⟨b, e, hm⟩ := f2.lockR hp
      have hb := back_self (th := th) (t := u) (r := r) (by unfold returned; rw [hm])
      show TI (back th u r u) u _
      rw [hb]
      cases r with
      | false => exact ⟨by rw [hre]; exact hrd, by rw [hwe]; exact hwr, _, e3, rfl⟩
      | true =>
        refine ⟨?_, ?_, _, e3, rfl⟩
        · rw [hre, if_pos rfl, guards_some, List.count_cons_self, ← hrd]
          simp [reading]
        · rw [hwe, if_pos rfl, guards_some, List.count_cons_of_ne (by decide), hwr]
          rfl
    | retWrite u r =>
      obtain rfl : u = t := hw
      have hp : (ph = .writing ∧ r = false ∨ ph = .entering ∧ r = true) ∧ ph' = .out := by
        cases ph <;> cases r <;> first | (cases e2; done) | (cases e2; simp)
      obtain ⟨hp, rfl⟩ := hp
      obtain ⟨b, e, hm⟩ := f2.lockW (hp.imp And.left And.left)
      have hb := back_self (th := th) (t := u) (r := r) (by unfold returned; rw [hm])
      show TI (back th u r u) u _
      rw [hb]
      rcases hp with ⟨-, rfl⟩ | ⟨hp, rfl⟩
      · exact ⟨by rw [hre]; exact hrd, by rw [hwe]; exact hwr, _, e3, rfl⟩
      · refine ⟨?_, ?_, _, e3, rfl⟩
        · rw [hre, if_pos rfl, guards_some, List.count_cons_of_ne (by decide), ← hrd]
          rfl
        · rw [he hp] at hwr hwe
          rw [hwe, if_pos rfl, guards_some, List.count_cons_self, hwr]
          simp [writing]
    | retReadUnlock u r =>
      obtain rfl : u = t := hw
      have hp : (ph = .unreading ∨ ph = .unread) ∧ ph' = .out := by
        cases ph <;> cases r <;> first | (cases e2; done) | (cases e2; simp)
      obtain ⟨hp, rfl⟩ := hp
      have hm := f2.unR hp
      have hb := back_self (th := th) (t := u) (r := r) (by unfold returned; rw [hm])
      show TI (back th u r u) u _
      rw [hb]
      exact ⟨by rw [hre]; exact hrd, by rw [hwe]; exact hwr, _, e3, rfl⟩
    | retWriteUnlock u r =>
      obtain rfl : u = t := hw
      have hp : (ph = .unwriting ∨ ph = .unwritten) ∧ ph' = .out := by
        cases ph <;> cases r <;> first | (cases e2; done) | (cases e2; simp)
      obtain ⟨hp, rfl⟩ := hp
      have hm := f2.unW hp
      have hb := back_self (th := th) (t := u) (r := r) (by unfold returned; rw [hm])
      show TI (back th u r u) u _
      rw [hb]
      exact ⟨by rw [hre]; exact hrd, by rw [hwe]; exact hwr, _, e3, rfl⟩
  · have e : note th l t = th t := by
      cases l <;> first | rfl | exact back_other (Ne.symm hw)
    rw [e]
    exact (h t).other hw

theorem notes_inv (ls : List Label) : ∀ {th : Nat → T Way} {pre : List Label}, (∀ t, TI (th t) t pre) → Lab (pre ++ ls) →
    Few (pre ++ ls) → (∀ l ∈ ls, quiet l = true) → ∀ t, TI (notes th ls t) t (pre ++ ls) := by
  induction ls with
  | nil => intro th pre h _ _ _ t; rw [List.append_nil]; exact h t
  | cons l ls ih =>
    intro th pre h hl hf hq t
    have e : pre ++ l :: ls = (pre ++ [l]) ++ ls := by simp
    rw [e] at hl hf ⊢
    exact ih (note_inv h hl.prefix (Few.prefix hf) (hq l (by simp))) hl hf (fun x hx => hq x (by simp [hx])) t

/-! ## The whole system -/

/-- A call: the thread's own step and the label. -/
def label : RwLock.Act → Label
  | .callRead t => .callRead t
  | .callWrite t => .callWrite t
  | .callReadUnlock t => .callReadUnlock t
  | .callWriteUnlock t => .callWriteUnlock t
  | .run t => .callRead t
  | .fail t => .callRead t

/-- What a step of a program does. -/
theorem prog_inv {x x' : T Way} {t : Nat} {pre : List Label} {c : Bool} {evs : List (Ev Way)} (h : TI x t pre)
    (hs : step x (.run c) = some (x', evs)) :
    (evs.filterMap (callOf t) = [] ∧ TI x' t pre) ∨
    ∃ a, evs.filterMap (callOf t) = [a] ∧ isCall (.lock a) = true ∧ who (label a) = t ∧
      (a = .callReadUnlock t → 0 < reading t 0 pre) ∧ (a = .callWriteUnlock t → writing t false pre = true) ∧
      TI x' t (pre ++ [label a]) := by
  obtain ⟨fs, md⟩ := x
  obtain ⟨hrd, hwr, ph, hph, hm⟩ := h
  unfold step at hs
  dsimp only at hs hrd hwr hm
  split at hs
  · cases hm
    unfold advance at hs
    split at hs
    · cases hs
    · cases hs; exact .inl ⟨rfl, hrd, hwr, _, hph, rfl⟩
    · rename_i k fs
      cases hs
      right
      rw [guards_some] at hrd hwr
      cases k with
      | read =>
        rw [List.count_cons_self] at hrd
        rw [List.count_cons_of_ne (by decide)] at hwr
        refine ⟨.callReadUnlock t, rfl, rfl, rfl, fun _ => by omega, (nomatch ·), ?_, ?_, ?_⟩
        · rw [reading_app, hrd]; simp [label, reading]
        · rw [writing_app, hwr]; rfl
        · exact ⟨_, by rw [phase_app, hph]; simp [label, phase, who, move], .inl rfl⟩
      | write =>
        rw [List.count_cons_self] at hwr
        rw [List.count_cons_of_ne (by decide)] at hrd
        have hw : writing t false pre = true := by
          cases e : writing t false pre with
          | true => rfl
          | false => rw [e] at hwr; simp at hwr
        rw [hw] at hwr
        refine ⟨.callWriteUnlock t, rfl, rfl, rfl, (nomatch ·), fun _ => hw, ?_, ?_, ?_⟩
        · rw [reading_app, hrd]; rfl
        · rw [writing_app]; simp [label, writing]; simpa using hwr
        · exact ⟨_, by rw [phase_app, hph]; simp [label, phase, who, move], .inl rfl⟩
    · cases hs; exact .inl ⟨rfl, hrd, hwr, _, hph, rfl⟩
    · cases hs; exact .inl ⟨rfl, hrd, hwr, _, hph, rfl⟩
    · cases hs; refine .inl ⟨rfl, ?_, ?_, _, hph, rfl⟩ <;> cases c <;> assumption
    · rename_i k body els cs g fs
      cases hs
      right
      cases k with
      | read =>
        refine ⟨.callRead t, rfl, rfl, rfl, (nomatch ·), (nomatch ·), ?_, ?_, ?_⟩
        · rw [reading_app, hrd]; rfl
        · rw [writing_app]; exact hwr
        · exact ⟨_, by rw [phase_app, hph]; simp [label, phase, who, move], .inl rfl⟩
      | write =>
        refine ⟨.callWrite t, rfl, rfl, rfl, (nomatch ·), (nomatch ·), ?_, ?_, ?_⟩
        · rw [reading_app, hrd]; rfl
        · rw [writing_app]; exact hwr
        · exact ⟨_, by rw [phase_app, hph]; simp [label, phase, who, move], .inl rfl⟩
    · cases hs
      refine .inl ⟨rfl, ?_, ?_, _, hph, rfl⟩
      · rw [hrd, guards_skip]; rfl
      · rw [guards_skip]; exact hwr
  · cases hs

theorem fail_quiet {s s' : RwLock.S} {t : Nat} {ls : List Label} (h : RwLock.fail s t = some (s', ls)) : ∀ l ∈ ls, quiet l = true := by
  unfold RwLock.fail at h
  split at h <;> first | (cases h; done) | (cases h; simp [quiet])

theorem run_quiet {s s' : RwLock.S} {t : Nat} {ls : List Label} (h : RwLock.run s t = some (s', ls)) : ∀ l ∈ ls, quiet l = true := by
  unfold RwLock.run at h
  split at h <;> (try split at h) <;> first | (cases h; done) | (cases h; simp [quiet, RwLock.retRead, RwLock.retWrite])

theorem react_quiet (l : RwLock.S) (x : Nat × RwLock.Full.Ev) : ∀ y ∈ (RwLock.Full.react l x).2, quiet y = true := by
  unfold RwLock.Full.react
  split
  · intro y hy; cases hy
  · dsimp only
    intro y hy
    unfold RwLock.Full.ghosts at hy
    split at hy
    · rw [List.mem_singleton.1 hy]; rfl
    · rw [List.mem_singleton.1 hy]; rfl
    · cases hy
  · intro y hy; cases hy
  · split
    · rename_i r e
      exact fail_quiet e
    · intro y hy; cases hy

theorem reacts_quiet (xs : List (Nat × RwLock.Full.Ev)) (l : RwLock.S) : ∀ y ∈ (RwLock.Full.reacts l xs).2, quiet y = true := by
  induction xs generalizing l with
  | nil => intro y hy; cases hy
  | cons x xs ih =>
    intro y hy
    rcases List.mem_append.1 hy with hy | hy
    · exact react_quiet l x y hy
    · exact ih _ y hy

theorem atW_quiet {s s' : RwLock.Full.S} {a : Sem.Act} {ls : List Label} (h : RwLock.Full.atW s a = .ok (some (s', ls))) :
    ∀ l ∈ ls, quiet l = true := by
  unfold RwLock.Full.atW at h
  cases e : Sem.step s.w a with
  | error _ => rw [e, error_bind] at h; cases h
  | ok r =>
    rw [e, ok_bind] at h
    cases r with
    | none => cases h
    | some x => obtain ⟨w, xs⟩ := x; cases h; exact reacts_quiet _ _

theorem atC_quiet {s s' : RwLock.Full.S} {a : Sem.Act} {ls : List Label} (h : RwLock.Full.atC s a = .ok (some (s', ls))) :
    ∀ l ∈ ls, quiet l = true := by
  unfold RwLock.Full.atC at h
  cases e : Sem.step s.c a with
  | error _ => rw [e, error_bind] at h; cases h
  | ok r =>
    rw [e, ok_bind] at h
    cases r with
    | none => cases h
    | some x => obtain ⟨w, xs⟩ := x; cases h; exact reacts_quiet _ _

theorem atE_quiet {s s' : RwLock.Full.S} {a : Event.Act} {ls : List Label} (h : RwLock.Full.atE s a = .ok (some (s', ls))) :
    ∀ l ∈ ls, quiet l = true := by
  unfold RwLock.Full.atE at h
  cases e : Event.step s.e a with
  | error _ => rw [e, error_bind] at h; cases h
  | ok r =>
    rw [e, ok_bind] at h
    cases r with
    | none => cases h
    | some x => obtain ⟨w, xs⟩ := x; cases h; exact reacts_quiet _ _

theorem inLock_some {s s' : RwLock.Full.S} {r : Option (RwLock.S × List Label)} {ls : List Label}
    (h : RwLock.Full.inLock s r = some (s', ls)) : ∃ l', r = some (l', ls) := by
  cases r with
  | none => cases h
  | some x => obtain ⟨l', y⟩ := x; cases h; exact ⟨l', rfl⟩

theorem step_quiet {f : Bool} {s s' : RwLock.Full.S} {a : RwLock.Full.Act} {ls : List Label} (hc : isCall a = false)
    (h : RwLock.Full.step f s a = .ok (some (s', ls))) : ∀ l ∈ ls, quiet l = true := by
  cases a with
  | lock a =>
    unfold RwLock.Full.step at h
    dsimp only at h
    split at h
    · cases h
    · obtain ⟨l', e⟩ := inLock_some (Except.ok.inj h)
      cases a with
      | run t => exact run_quiet e
      | fail t => exact fail_quiet e
      | callRead t => cases hc
      | callWrite t => cases hc
      | callReadUnlock t => cases hc
      | callWriteUnlock t => cases hc
  | enter t w =>
    unfold RwLock.Full.step at h
    dsimp only at h
    split at h <;> first | (cases h; done) | exact atW_quiet h | exact atC_quiet h | exact atE_quiet h
  | late t =>
    unfold RwLock.Full.step RwLock.Full.late at h
    dsimp only at h
    split at h
    · split at h <;> cases h <;> (intro l hl; cases hl)
    · cases h
  | inW a => exact atW_quiet h
  | inC a => exact atC_quiet h
  | inE a => exact atE_quiet h

theorem call_label {f : Bool} {s s' : RwLock.Full.S} {a : RwLock.Act} {ls : List Label} (hc : isCall (.lock a) = true)
    (h : RwLock.Full.step f s (.lock a) = .ok (some (s', ls))) : ls = [label a] := by
  unfold RwLock.Full.step at h
  dsimp only at h
  split at h
  · cases h
  · obtain ⟨l', e⟩ := inLock_some (Except.ok.inj h)
    cases a <;> first | (cases hc; done) | (unfold RwLock.step at e; dsimp only at e; split at e <;> cases e; rfl)

theorem free_eq {s : RwLock.Full.S} {a : RwLock.Full.Act} (h : isCall a = false) :
    RwLock.Full.step true s a = RwLock.Full.step false s a := by
  cases a with
  | lock a => cases a <;> first | (cases h; done) | rfl
  | _ => rfl

theorem call_eq {s : RwLock.Full.S} {a : RwLock.Act} (h1 : ∀ t, a = .callReadUnlock t → 0 < s.l.rd t)
    (h2 : ∀ t, a = .callWriteUnlock t → s.l.wr t = true) :
    RwLock.Full.step true s (.lock a) = RwLock.Full.step false s (.lock a) := by
  unfold RwLock.Full.step
  have e : RwLock.step true s.l a = RwLock.step false s.l a := by
    cases a <;> first | rfl | (unfold RwLock.step; simp [h1 _ rfl]; done) | (unfold RwLock.step; simp [h2 _ rfl])
  dsimp only
  rw [e]

theorem full_snoc {s s' s'' : RwLock.Full.S} {as : List RwLock.Full.Act} {a : RwLock.Full.Act} {p l : List Label} :
    RwLock.Full.exec false s as = .ok (s', p) → RwLock.Full.step false s' a = .ok (some (s'', l)) →
    RwLock.Full.exec false s (as ++ [a]) = .ok (s'', p ++ l) := by
  induction as generalizing s p with
  | nil =>
    intro h1 h2
    cases h1
    show RwLock.Full.exec false _ [a] = _
    rw [RwLock.Full.exec, h2, ok_bind]
    simp [RwLock.Full.exec]
  | cons b as ih =>
    intro h1 h2
    rw [List.cons_append]
    rw [RwLock.Full.exec] at h1 ⊢
    cases e : RwLock.Full.step false s b with
    | error _ => rw [e, error_bind] at h1; cases h1
    | ok r =>
      rw [e, ok_bind] at h1
      rw [ok_bind]
      cases r with
      | none => exact ih h1 h2
      | some x =>
        obtain ⟨s1, l1⟩ := x
        dsimp only at h1 ⊢
        cases e' : RwLock.Full.exec false s1 as with
        | error _ => rw [e', error_bind] at h1; cases h1
        | ok y =>
          obtain ⟨s2, l2⟩ := y
          rw [e', ok_bind] at h1
          cases h1
          rw [ih e' h2, ok_bind, List.append_assoc]

theorem full_facts {s : RwLock.Full.S} {as : List RwLock.Full.Act} {p : List Label}
    (h : RwLock.Full.exec false RwLock.Full.init as = .ok (s, p)) :
    Lab p ∧ (Few p → ∀ t, s.l.rd t = reading t 0 p ∧ s.l.wr t = writing t false p) := by
  obtain ⟨s', ls, n, k, bs, he, -, hb⟩ := RwLock.Full.exec_same false as RwLock.Full.init_inv
  rw [h] at he
  cases he
  rw [RwLock.Full.abs_init] at hb
  refine ⟨⟨bs, by rw [hb]⟩, fun hf t => ?_⟩
  obtain ⟨R, W, tw, tc, -, -, -, hg⟩ := RwLock.reach bs (by rw [hb]; exact hf)
  have := hg t
  rw [hb] at this
  exact this

theorem Lab.last {p : List Label} {l : Label} (h : Lab (p ++ [l])) :
    ∃ cs a s', (RwLock.exec false RwLock.init cs).2 = p ∧
      RwLock.step false (RwLock.exec false RwLock.init cs).1 a = some (s', [l]) := by
  obtain ⟨bs, h⟩ := h
  have key : ∀ (bs : List RwLock.Act) (s : RwLock.S) (p : List Label), (RwLock.exec false s bs).2 = p ++ [l] →
      ∃ cs a s', (RwLock.exec false s cs).2 = p ∧ RwLock.step false (RwLock.exec false s cs).1 a = some (s', [l]) := by
    intro bs
    induction bs with
    | nil => intro s p h; cases p <;> cases h
    | cons a as ih =>
      intro s p h
      rw [RwLock.exec] at h
      cases hs : RwLock.step false s a with
      | none => rw [hs] at h; exact ih s p h
      | some x =>
        obtain ⟨s', ls⟩ := x
        rw [hs] at h
        dsimp only at h
        have hl := one_label _ _ _ _ _ hs
        match ls, hl with
        | [], _ =>
          obtain ⟨cs, b, s2, e1, e2⟩ := ih s' p h
          exact ⟨a :: cs, b, s2, by rw [RwLock.exec, hs]; exact e1, by rw [RwLock.exec, hs]; exact e2⟩
        | [z], _ =>
          cases p with
          | nil =>
            rw [List.cons_append, List.nil_append, List.nil_append] at h
            obtain ⟨e1, -⟩ := List.cons.inj h
            exact ⟨[], a, s', rfl, by rw [← e1]; exact hs⟩
          | cons y p =>
            rw [List.cons_append, List.nil_append, List.cons_append] at h
            obtain ⟨e0, e1⟩ := List.cons.inj h
            obtain ⟨cs, b, s2, e2, e3⟩ := ih s' p e1
            exact ⟨a :: cs, b, s2, by rw [RwLock.exec, hs]; dsimp only; rw [e2, e0]; rfl, by rw [RwLock.exec, hs]; exact e3⟩
  exact key bs _ p h

theorem Lab.paired {p q : List Label} {l : Label} (h : Lab (p ++ l :: q)) (hf : Few (p ++ l :: q)) (t : Nat) :
    (l = .callReadUnlock t → 0 < reading t 0 p) ∧ (l = .callWriteUnlock t → writing t false p = true) := by
  have e : p ++ l :: q = (p ++ [l]) ++ q := by simp
  rw [e] at h hf
  obtain ⟨cs, a, s', e1, e2⟩ := h.prefix.last
  obtain ⟨R, W, tw, tc, -, -, -, hg⟩ := RwLock.reach cs (by rw [e1]; exact Few.prefix (Few.prefix hf))
  have hg := hg t
  rw [e1] at hg
  rw [← hg.1, ← hg.2]
  constructor
  · rintro rfl
    cases a with
    | run u => exact nomatch run_quiet e2 _ (List.mem_singleton.2 rfl)
    | fail u => exact nomatch fail_quiet e2 _ (List.mem_singleton.2 rfl)
    | callRead u => simp only [RwLock.step] at e2; split at e2 <;> cases e2
    | callWrite u => simp only [RwLock.step] at e2; split at e2 <;> cases e2
    | callWriteUnlock u => simp only [RwLock.step] at e2; split at e2 <;> cases e2
    | callReadUnlock u =>
      simp only [RwLock.step] at e2
      split at e2
      · rename_i hc
        cases e2
        exact hc.2.resolve_left (nomatch ·)
      · cases e2
  · rintro rfl
    cases a with
    | run u => exact nomatch run_quiet e2 _ (List.mem_singleton.2 rfl)
    | fail u => exact nomatch fail_quiet e2 _ (List.mem_singleton.2 rfl)
    | callRead u => simp only [RwLock.step] at e2; split at e2 <;> cases e2
    | callWrite u => simp only [RwLock.step] at e2; split at e2 <;> cases e2
    | callReadUnlock u => simp only [RwLock.step] at e2; split at e2 <;> cases e2
    | callWriteUnlock u =>
      simp only [RwLock.step] at e2
      split at e2
      · rename_i hc
        cases e2
        exact hc.2.resolve_left (nomatch ·)
      · cases e2

/-- Everything a system of threads with guards does is done by threads whose calls are paired. -/
theorem sexec_paired (as : List SAct) : ∀ {s s' : Sys} {pre ls : List Label} {fas : List RwLock.Full.Act},
    RwLock.Full.exec false RwLock.Full.init fas = .ok (s.lk, pre) → (∀ t, TI (s.th t) t pre) →
    sexec s as = .ok (s', ls) → Few (pre ++ ls) →
    ∃ fas', RwLock.Full.exec false RwLock.Full.init fas' = .ok (s'.lk, pre ++ ls) ∧ ∀ t, TI (s'.th t) t (pre ++ ls) := by
  induction as with
  | nil =>
    intro s s' pre ls fas h1 h2 h3 _
    cases h3
    rw [List.append_nil]
    exact ⟨fas, h1, h2⟩
  | cons a as ih =>
    intro s s' pre ls fas h1 h2 h3 hf
    rw [sexec] at h3
    cases e : sstep s a with
    | error _ => rw [e, error_bind] at h3; cases h3
    | ok r =>
      rw [e, ok_bind] at h3
      cases r with
      | none => exact ih h1 h2 h3 hf
      | some x =>
        obtain ⟨s1, l1⟩ := x
        dsimp only at h3
        cases e' : sexec s1 as with
        | error _ => rw [e', error_bind] at h3; cases h3
        | ok y =>
          obtain ⟨s2, l2⟩ := y
          rw [e', ok_bind] at h3
          cases h3
          rw [← List.append_assoc] at hf ⊢
          suffices hone : ∃ fas', RwLock.Full.exec false RwLock.Full.init fas' = .ok (s1.lk, pre ++ l1) ∧
              ∀ t, TI (s1.th t) t (pre ++ l1) by
            obtain ⟨fas', a1, a2⟩ := hone
            exact ih a1 a2 e' hf
          have hf1 := Few.prefix hf
          have hfp := Few.prefix hf1
          obtain ⟨-, hg⟩ := full_facts h1
          have hg := hg hfp
          -- a step inside the lock
          have hin : ∀ th a, inside s th a = .ok (some (s1, l1)) → RwLock.Full.step true s.lk a = RwLock.Full.step false s.lk a →
              (RwLock.Full.exec false RwLock.Full.init (fas ++ [a]) = .ok (s1.lk, pre ++ l1)) ∧ s1.th = notes th l1 ∧
                RwLock.Full.step true s.lk a = .ok (some (s1.lk, l1)) := by
            intro th a hi heq
            unfold inside at hi
            cases e2 : RwLock.Full.step true s.lk a with
            | error _ => rw [e2, error_bind] at hi; cases hi
            | ok r =>
              rw [e2, ok_bind] at hi
              cases r with
              | none => cases hi
              | some z =>
                obtain ⟨lk, l⟩ := z
                cases hi
                exact ⟨full_snoc h1 (by rw [← heq]; exact e2), rfl, rfl⟩
          cases a with
          | lock a =>
            unfold sstep at e
            dsimp only at e
            split at e
            · cases e
            · rename_i hc
              have hc : isCall a = false := by simpa using hc
              obtain ⟨a1, a2, a3⟩ := hin _ _ e (free_eq hc)
              refine ⟨_, a1, ?_⟩
              rw [a2]
              exact notes_inv l1 h2 (full_facts a1).1 hf1 (step_quiet hc a3)
          | prog t c =>
            unfold sstep at e
            dsimp only at e
            cases hs : step (s.th t) (.run c) with
            | none => rw [hs] at e; cases e
            | some z =>
              obtain ⟨x, evs⟩ := z
              rw [hs] at e
              dsimp only at e
              rcases prog_inv (h2 t) hs with ⟨hn, hti⟩ | ⟨a, hn, hc, hw, hr, hwr, hti⟩
              · rw [hn] at e
                cases e
                rw [List.append_nil]
                refine ⟨fas, h1, fun u => ?_⟩
                by_cases hu : u = t
                · subst hu; simpa [setAt] using hti
                · simpa [setAt, hu] using h2 u
              · rw [hn] at e
                dsimp only at e
                have ht : ∀ u, a = .callReadUnlock u ∨ a = .callWriteUnlock u → u = t := by
                  rintro u (rfl | rfl) <;> exact hw
                obtain ⟨a1, a2, a3⟩ := hin _ _ e (call_eq
                  (fun u hu => by rw [(hg u).1]; cases ht u (.inl hu); exact hr hu)
                  (fun u hu => by rw [(hg u).2]; cases ht u (.inr hu); exact hwr hu))
                refine ⟨_, a1, fun u => ?_⟩
                obtain rfl := call_label hc a3
                have hq : ∀ th : Nat → T Way, notes th [label a] = th := by
                  intro th
                  cases a <;> rfl
                rw [a2, hq]
                by_cases hu : u = t
                · subst hu; simpa [setAt] using hti
                · have : setAt s.th t x u = s.th u := by simp [setAt, hu]
                  rw [this]
                  exact (h2 u).other (by rw [hw]; exact Ne.symm hu)

theorem sinit_inv (progs : Nat → List (Cmd Way)) (t : Nat) : TI ((sinit progs).th t) t [] := ⟨rfl, rfl, _, rfl, rfl⟩

/-- Everything is defined, whatever happens. -/
theorem guarded_defined (progs : Nat → List (Cmd Way)) (as : List SAct) : ∃ s ls, sexec (sinit progs) as = .ok (s, ls) := by
  have key : ∀ (as : List SAct) (s : Sys) (n k : Nat), RwLock.Full.Inv s.lk n k → ∃ s' ls, sexec s as = .ok (s', ls) := by
    intro as
    induction as with
    | nil => intro s n k _; exact ⟨_, _, rfl⟩
    | cons a as ih =>
      intro s n k h
      have hin : ∀ th a, ∃ r, inside s th a = .ok r ∧ ∀ s' ls, r = some (s', ls) → ∃ n k, RwLock.Full.Inv s'.lk n k := by
        intro th a
        obtain ⟨r, hr, hs⟩ := RwLock.Full.step_same (free := true) (a := a) h
        unfold inside
        rw [hr, ok_bind]
        cases r with
        | none => exact ⟨_, rfl, fun _ _ e => nomatch e⟩
        | some x =>
          obtain ⟨lk, l⟩ := x
          refine ⟨_, rfl, fun s' ls e => ?_⟩
          cases e
          obtain ⟨n', k', -, hi, -⟩ := hs _ _ rfl
          exact ⟨n', k', hi⟩
      have hst : ∃ r, sstep s a = .ok r ∧ ∀ s' ls, r = some (s', ls) → ∃ n k, RwLock.Full.Inv s'.lk n k := by
        cases a with
        | lock a =>
          unfold sstep
          dsimp only
          split
          · exact ⟨_, rfl, fun _ _ e => nomatch e⟩
          · exact hin _ _
        | prog t c =>
          unfold sstep
          dsimp only
          split
          · exact ⟨_, rfl, fun _ _ e => nomatch e⟩
          · split
            · exact ⟨_, rfl, fun s' ls e => by cases e; exact ⟨n, k, h⟩⟩
            · exact hin _ _
      obtain ⟨r, hr, hn⟩ := hst
      rw [sexec, hr, ok_bind]
      cases r with
      | none => exact ih s n k h
      | some x =>
        obtain ⟨s1, l1⟩ := x
        obtain ⟨n', k', hi⟩ := hn _ _ rfl
        obtain ⟨s2, l2, e⟩ := ih s1 n' k' hi
        dsimp only
        rw [e, ok_bind]
        exact ⟨_, _, rfl⟩
  exact key as _ 1 1 RwLock.Full.init_inv

/-- **C123** for the reader-writer lock.  Any number of threads, each with any program that takes the lock only together with
a guard, all steps interleaved and anything inside the lock failing at any moment: writers exclude each other and readers, no
thread ever unlocks what it has not got, and a thread whose program has ended has no lock.  (The limit is the one of C37: fewer
than 2^32 - 1 readers inside at once.) -/
theorem guarded_exclusion (progs : Nat → List (Cmd Way)) (as : List SAct) (s : Sys) (ls : List Label)
    (h : sexec (sinit progs) as = .ok (s, ls)) (hf : Few ls) :
    (∀ t u, writing t false ls = true → (writing u false ls = true → t = u) ∧ reading u 0 ls = 0) ∧
    (∀ p q t, ls = p ++ .callReadUnlock t :: q → 0 < reading t 0 p) ∧
    (∀ p q t, ls = p ++ .callWriteUnlock t :: q → writing t false p = true) ∧
    (∀ t, (s.th t).frames = [] → reading t 0 ls = 0 ∧ writing t false ls = false) := by
  obtain ⟨fas, h1, h2⟩ := sexec_paired as (fas := []) (pre := []) rfl (sinit_inv progs) h hf
  rw [List.nil_append] at h1 h2
  refine ⟨fun t u ht => ⟨fun hu => RwLock.Full.full_one_writer_partial fas _ _ h1 hf t u ht hu,
    RwLock.Full.full_no_reader_partial fas _ _ h1 hf t u ht⟩, ?_, ?_, fun t ht => ?_⟩
  · rintro p q t rfl
    exact ((full_facts h1).1.paired hf t).1 rfl
  · rintro p q t rfl
    exact ((full_facts h1).1.paired hf t).2 rfl
  · have h3 := (h2 t).rd
    have h4 := (h2 t).wr
    rw [ht] at h3 h4
    refine ⟨h3, ?_⟩
    cases e : writing t false ls with
    | false => rfl
    | true => rw [e] at h4; simp [guards] at h4

/-- Thread `t` goes on in its program, and then in the lock as far as it can. -/
def go (t : Nat) : List SAct :=
  .prog t true :: ((RwLock.Full.go t ++ RwLock.Full.go t ++ RwLock.Full.go t ++ RwLock.Full.go t ++ RwLock.Full.go t).map .lock)

def prog (t : Nat) : List (Cmd Way) := if t = 1 then [.take .read [.work, .leave 7, .work] []] else [.take .write [.work] []]

def shows (as : List SAct) (p : Sys → List Label → Bool) : Bool :=
  match sexec (sinit prog) as with
  | .ok (s, ls) => p s ls
  | .error _ => false

set_option maxRecDepth 20000 in
/-- Thread 1 reads, thread 2 waits for it; thread 1 leaves everything at once, thread 2 writes. -/
example : shows (go 1 ++ go 2) (fun s ls => reading 1 0 ls = 1 && decide (s.lk.e.pc 2 = .wBlocked 4294967295)) = true ∧
    shows (go 1 ++ go 2 ++ go 1 ++ go 1 ++ go 1 ++ go 1 ++ [.prog 1 true] ++ go 2)
      (fun s ls => reading 1 0 ls = 0 && writing 2 false ls && (s.th 1).frames.isEmpty) = true := ⟨rfl, rfl⟩

end Verif.Guard
