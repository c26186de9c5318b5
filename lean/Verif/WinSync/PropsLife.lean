import Verif.WinSync.Names

/-!
# C104, C105, C107: lives and names of sync objects on Windows
-/

namespace Verif.WinSync
open Spec

theorem reach {ops : List Op} (hl : LegalAll [] ops) {rs w} (h : exec W.init ops = .ok (rs, w)) :
    Inv True w (madeAll (fun _ => none) ops rs) (ops.foldl classes []) := by
  obtain ⟨rs', w', h1, h2, _⟩ := exec_any ops inv_init hl
  rw [h1] at h
  cases h
  exact h2

/-! ## Lives -/

/-- Whatever legal calls are made and whatever fails: no handle is used after it is closed, and the accounts are right. -/
theorem win_life (ops : List Op) (hl : LegalAll [] ops) : ∃ rs w, exec W.init ops = .ok (rs, w) ∧ Accounted w := by
  obtain ⟨rs, w, h1, h2, _⟩ := exec_any ops inv_init hl
  exact ⟨rs, w, h1, h2.accounted⟩

/-- When all objects are destroyed nothing is open, but perhaps kernel mutexes. -/
theorem win_life_end (ops : List Op) (hl : LegalAll [] ops) (hg : ∀ c ∈ ops.foldl classes [], c = none) {rs w}
    (h : exec W.init ops = .ok (rs, w)) : (∀ h k, Open w h k → IsMutex w k) ∧ ∀ v k : Nat, w.views[v]? ≠ some (some k) := by
  have hi := reach hl h
  have ha := hi.accounted
  constructor
  · intro h k ho
    refine Classical.byContradiction fun hm => ?_
    obtain ⟨i, s, o, h1, _⟩ := ha.all h k ho hm
    exact hi.gone hg i o h1
  · intro v k hv
    obtain ⟨i, o, h1, _⟩ := ha.viewAll v k hv
    exact hi.gone hg i o h1

/-- No block is lost, if `SharedMem::Create` is not called. -/
theorem win_life_blocks (ops : List Op) (hl : LegalAll [] ops) (hm : ∀ i name size a b c, Op.memCreate i name size a b c ∉ ops) {rs w}
    (h : exec W.init ops = .ok (rs, w)) : w.blocks = 0 := by
  obtain ⟨rs', w', h1, _, h3⟩ := exec_any ops inv_init hl
  rw [h1] at h
  cases h
  refine h3 (fun op hop => ?_)
  cases op with
  | memCreate i name size a b c => exact absurd hop (hm i name size a b c)
  | _ => rfl

/-- An object that is created has all its kernel objects. -/
theorem win_created (ops : List Op) (hl : LegalAll [] ops) {rs w} (h : exec W.init ops = .ok (rs, w)) {i : Nat} {m : Made}
    (hm : madeAll (fun _ => none) ops rs i = some m) : (ops.foldl classes [])[i]? = some (some m.cls) ∧ ∀ s, s < m.cls.slots → ∃ k, Ref w i s k := by
  have hi := reach hl h
  refine ⟨?_, fun s hs => hi.ref hm hs⟩
  obtain ⟨o, ho, h1, _⟩ := hi.made i m hm
  rw [← hi.cls, List.getElem?_map, ho, ← h1.1]; rfl

theorem one_none {l : List (Option Nat)} (hl : l.length = 1) (h : none ∈ l) : l = [none] := by
  obtain ⟨x, rfl⟩ := len1 hl
  rw [← List.mem_singleton.1 h]

theorem idle_hs {w f cs} (hi : Inv True w f cs) {i : Nat} {c : Cls} (hc : cs[i]? = some (some c)) (hn : f i = none) (hp : c = .sem ∨ c = .event) :
    ∃ o, w.objs[i]? = some (some o) ∧ o.hs = [none] := by
  obtain ⟨o, ho, hcl⟩ := hi.obj hc
  refine ⟨o, ho, one_none ?_ (hi.idle i o ho hn ?_)⟩
  · rw [hi.len i o ho, hcl]
    rcases hp with rfl | rfl <;> rfl
  · rw [hcl]
    rcases hp with h | h
    · exact .inl h
    · exact .inr (.inl h)

/-- The calls of a semaphore that is not created return `false` and do nothing. -/
theorem win_sem_idle (ops : List Op) (hl : LegalAll [] ops) {rs w} (h : exec W.init ops = .ok (rs, w)) {i : Nat}
    (hc : (ops.foldl classes [])[i]? = some (some .sem)) (hn : madeAll (fun _ => none) ops rs i = none) (fails : Bool) :
    step w (.semLock i fails) = .ok (⟨false, none⟩, w) ∧ step w (.semUnlock i fails) = .ok (⟨false, none⟩, w) := by
  obtain ⟨o, ho, hs⟩ := idle_hs (reach hl h) hc hn (.inl rfl)
  constructor
  · unfold step semLock
    dsimp only
    rw [getObj_ok ho, ok_bind, hs]; rfl
  · unfold step semUnlock
    dsimp only
    rw [getObj_ok ho, ok_bind, hs]; rfl

/-- The calls of an event that is not created return `false` and do nothing. -/
theorem win_event_idle (ops : List Op) (hl : LegalAll [] ops) {rs w} (h : exec W.init ops = .ok (rs, w)) {i : Nat}
    (hc : (ops.foldl classes [])[i]? = some (some .event)) (hn : madeAll (fun _ => none) ops rs i = none) (fails : Bool) :
    step w (.evWait i fails) = .ok (⟨false, none⟩, w) ∧ step w (.evFire i fails) = .ok (⟨false, none⟩, w) ∧
      step w (.evReset i fails) = .ok (⟨false, none⟩, w) := by
  obtain ⟨o, ho, hs⟩ := idle_hs (reach hl h) hc hn (.inr rfl)
  refine ⟨?_, ?_, ?_⟩
  · unfold step evWait
    dsimp only
    rw [getObj_ok ho, ok_bind, hs]; rfl
  · unfold step evSet
    dsimp only
    rw [getObj_ok ho, ok_bind, hs]; rfl
  · unfold step evSet
    dsimp only
    rw [getObj_ok ho, ok_bind, hs]; rfl

/-- A reader-writer lock and a semaphore, created again, with failures, and destroyed. -/
example : LegalAll [] [.construct .rw, .construct .sem, .rwCreate 0 (some [97]) false false true false, .rwCreate 0 (some [97]) false false false false,
    .semCreate 1 (some [97]) 3 false, .semCreate 1 none 3 true, .destroy 1 0, .destroy 0 0] ∧
    (∀ c ∈ [Op.construct .rw, .construct .sem, .rwCreate 0 (some [97]) false false true false, .rwCreate 0 (some [97]) false false false false,
      .semCreate 1 (some [97]) 3 false, .semCreate 1 none 3 true, .destroy 1 0, .destroy 0 0].foldl classes [], c = none) := by
  refine ⟨⟨trivial, trivial, rfl, rfl, rfl, rfl, ⟨.sem, rfl⟩, ⟨.rw, rfl⟩, trivial⟩, ?_⟩
  decide

/-! ## Reader-writer locks that are not created -/

/-- `ReadLock` is refused by a lock that is not created. -/
theorem win_rw_idle_partial (ops : List Op) (hl : LegalAll [] ops) {rs w} (h : exec W.init ops = .ok (rs, w)) {i : Nat}
    (hc : (ops.foldl classes [])[i]? = some (some .rw)) (hn : madeAll (fun _ => none) ops rs i = none) :
    ∃ o, w.objs[i]? = some (some o) ∧ rwReady o readLockNeeds = false := by
  have hi := reach hl h
  obtain ⟨o, ho, hcl⟩ := hi.obj hc
  refine ⟨o, ho, ?_⟩
  have hm := hi.idle i o ho hn (by rw [hcl]; exact .inr (.inr (.inl rfl)))
  have hlen : o.hs.length = 4 := by rw [hi.len i o ho, hcl]; rfl
  match hs : o.hs, hlen with
  | [a, b, c, d], _ =>
    rw [hs] at hm
    unfold rwReady readLockNeeds
    rw [hs]
    cases a <;> cases b <;> cases c <;> cases d <;> simp_all

/-- A lock on which `Create` has not been called refuses all four calls. -/
theorem win_rw_fresh (w : W) : ∃ o w', step w (.construct .rw) = .ok (⟨true, none⟩, w') ∧ w'.objs[w.objs.length]? = some (some o) ∧
    rwReady o readLockNeeds = false ∧ rwReady o readUnlockNeeds = false ∧ rwReady o writeLockNeeds = false ∧
    rwReady o writeUnlockNeeds = false :=
  ⟨⟨.rw, List.replicate 4 none, none, false, 0, none, 0⟩, _, rfl, by simp [construct, Cls.slots], rfl, rfl, rfl, rfl⟩

theorem closeAll_objs : ∀ (hs : List (Option Nat)) {w w1 : W}, closeAll w hs = .ok w1 → w1.objs = w.objs
  | [], w, w1, h => by cases h; rfl
  | none :: hs, w, w1, h => closeAll_objs (w := w) hs h
  | some x :: hs, w, w1, h => by
    unfold closeAll close at h
    cases e : handle w x with
    | error u => rw [e] at h; cases h
    | ok k => rw [e] at h; exact (closeAll_objs hs h).trans rfl

theorem kcreate_objs (w : W) (name : Option Str) (st : KSt) (fails : Bool) :
    (kcreate w name st fails).1.objs = w.objs ∧ (fails = true → (kcreate w name st fails).2 = none) := by
  refine ⟨?_, fun h => by unfold kcreate; rw [if_pos h]⟩
  unfold kcreate
  split
  · rfl
  · split
    · rfl
    · split
      · unfold kopen
        split
        · rfl
        · split
          · split <;> rfl
          · rfl
      · rfl

/-- After a `Create` in which the system refused some of the four kernel objects, exactly those calls may go ahead that test
none of them: the other calls are refused. -/
theorem win_rw_failed_partial {w i name f0 f1 f2 f3 r w'} (h : step w (.rwCreate i name f0 f1 f2 f3) = .ok (r, w')) :
    ∃ o, w'.objs[i]? = some (some o) ∧ (f0 || f1 || f2 || f3 → rwReady o readLockNeeds = false) ∧
      (f0 || f1 || f2 → rwReady o readUnlockNeeds = false) ∧ (f2 || f3 → rwReady o writeLockNeeds = false) ∧
      (f3 → rwReady o writeUnlockNeeds = false) := by
  change plain (rwCreate w i name f0 f1 f2 f3) = .ok (r, w') at h
  unfold plain rwCreate at h
  cases hg : getObj w i with
  | error u => rw [hg] at h; cases h
  | ok o =>
  have hlt : i < w.objs.length := by
    unfold getObj at hg
    rcases Nat.lt_or_ge i w.objs.length with h | h
    · exact h
    · rw [List.getElem?_eq_none h] at hg; cases hg
  rw [hg, ok_bind] at h
  cases hc : closeAll w o.hs with
  | error u => rw [hc] at h; cases h
  | ok w0 =>
  rw [hc, ok_bind] at h
  have e0 := closeAll_objs _ hc
  simp only [rwName_ok, ok_bind] at h
  generalize ha : kcreate _ _ _ f0 = a at h
  generalize hb : kcreate _ _ _ f1 = b at h
  generalize hc : kcreate _ _ _ f2 = c at h
  generalize hd : kcreate _ _ _ f3 = d at h
  have key : ∀ {v : W} {n st f a}, kcreate v n st f = a → a.1.objs = v.objs ∧ (f = true → a.2 = none) := by
    rintro v n st f a rfl
    exact kcreate_objs v n st f
  obtain ⟨a1, a2⟩ := key ha
  obtain ⟨b1, b2⟩ := key hb
  obtain ⟨c1, c2⟩ := key hc
  obtain ⟨d1, d2⟩ := key hd
  cases h
  refine ⟨{ o with hs := [a.2, b.2, c.2, d.2] }, ?_, ?_⟩
  · show (d.1.objs.set i _)[i]? = _
    rw [List.getElem?_set_self]
    rw [d1, c1, b1, a1]
    exact e0 ▸ hlt
  · unfold rwReady readLockNeeds readUnlockNeeds writeLockNeeds writeUnlockNeeds
    refine ⟨fun hf => ?_, fun hf => ?_, fun hf => ?_, fun hf => ?_⟩
    all_goals
      try simp only [Bool.or_eq_true] at hf
      simp
      grind

/-- `Create` with the second kernel object refused, after one that succeeded. -/
example : ∃ r w', step W.init (.construct .rw) = .ok (⟨true, none⟩, w') ∧ (step w' (.rwCreate 0 (some [97]) false true false false)).map (·.1) = .ok r :=
  ⟨_, _, rfl, rfl⟩

/-- All calls go ahead on a lock that is created. -/
theorem win_rw_ready (ops : List Op) (hl : LegalAll [] ops) {rs w} (h : exec W.init ops = .ok (rs, w)) {i : Nat} {m : Made}
    (hm : madeAll (fun _ => none) ops rs i = some m) (hc : m.cls = .rw) :
    ∃ o, w.objs[i]? = some (some o) ∧ rwReady o readLockNeeds = true ∧ rwReady o readUnlockNeeds = true ∧ rwReady o writeLockNeeds = true ∧
      rwReady o writeUnlockNeeds = true := by
  have hi := reach hl h
  obtain ⟨o, ho, h1, _⟩ := hi.made i m hm
  refine ⟨o, ho, ?_⟩
  have h2 : ∀ s, s < 4 → ∃ h : Nat, o.hs[s]? = some (some h) := fun s hs => by
    obtain ⟨h, _, _, e, _⟩ := h1.2 s (by rw [hc]; exact hs)
    exact ⟨h, e⟩
  obtain ⟨a, ha⟩ := h2 0 (by omega)
  obtain ⟨b, hb⟩ := h2 1 (by omega)
  obtain ⟨c, hc⟩ := h2 2 (by omega)
  obtain ⟨d, hd⟩ := h2 3 (by omega)
  unfold rwReady readLockNeeds readUnlockNeeds writeLockNeeds writeUnlockNeeds
  simp [ha, hb, hc, hd]

/-- The full claim is false: `WriteLock` and `WriteUnlock` go ahead although `Create` returned `false`. -/
theorem win_rw_idle_false : ∃ rs w o, exec W.init [.construct .rw, .rwCreate 0 none true false false false] = .ok (rs, w) ∧
    madeAll (fun _ => none) [.construct .rw, .rwCreate 0 none true false false false] rs 0 = none ∧ w.objs[0]? = some (some o) ∧
    rwReady o writeLockNeeds = true ∧ rwReady o writeUnlockNeeds = true :=
  ⟨_, _, _, rfl, rfl, rfl, rfl, rfl⟩

/-- And so does `ReadUnlock`. -/
theorem win_rw_idle_unlock_false : ∃ rs w o, exec W.init [.construct .rw, .rwCreate 0 none false false false true] = .ok (rs, w) ∧
    madeAll (fun _ => none) [.construct .rw, .rwCreate 0 none false false false true] rs 0 = none ∧ w.objs[0]? = some (some o) ∧
    rwReady o readUnlockNeeds = true :=
  ⟨_, _, _, rfl, rfl, rfl, rfl⟩

/-! ## Mutexes -/

/-- If `Create` is never called on a mutex that is created, handles of mutexes are not lost either. -/
theorem win_mutex_life_partial (ops : List Op) (hl : LegalAll [] ops) {rs w} (h : exec W.init ops = .ok (rs, w))
    (ht : TidyAll (fun _ => none) ops rs) : ∀ h k, Open w h k → ∃ i s, Slot w i s h := by
  have hi := exec_tidy ops inv_init hl h ht
  intro g k ho
  rcases hi.core.own g k ho with ⟨i, s, e⟩ | ⟨e, _⟩
  · exact ⟨i, s, slot_iff.2 e⟩
  · exact e.elim

/-- So that nothing at all is open in the end. -/
theorem win_mutex_life_end_partial (ops : List Op) (hl : LegalAll [] ops) {rs w} (h : exec W.init ops = .ok (rs, w))
    (ht : TidyAll (fun _ => none) ops rs) (hg : ∀ c ∈ ops.foldl classes [], c = none) : ∀ h k, ¬ Open w h k := by
  intro g k ho
  obtain ⟨i, s, o, h1, _⟩ := win_mutex_life_partial ops hl h ht g k ho
  exact (reach hl h).gone hg i o h1

/-- Two mutexes of one name, locked and unlocked. -/
example : LegalAll [] [.construct .mutex, .construct .mutex, .mutexCreate 0 1 (some [97]) false, .mutexCreate 1 2 (some [97]) true,
      .mutexCreate 1 2 (some [97]) false, .mutexLock 0 1 false, .mutexLock 1 2 false, .destroy 0 1, .mutexLock 1 2 false, .destroy 1 2] ∧
    ∃ rs w, exec W.init [.construct .mutex, .construct .mutex, .mutexCreate 0 1 (some [97]) false, .mutexCreate 1 2 (some [97]) true,
      .mutexCreate 1 2 (some [97]) false, .mutexLock 0 1 false, .mutexLock 1 2 false, .destroy 0 1, .mutexLock 1 2 false, .destroy 1 2]
        = .ok (rs, w) ∧
      TidyAll (fun _ => none) [.construct .mutex, .construct .mutex, .mutexCreate 0 1 (some [97]) false, .mutexCreate 1 2 (some [97]) true,
      .mutexCreate 1 2 (some [97]) false, .mutexLock 0 1 false, .mutexLock 1 2 false, .destroy 0 1, .mutexLock 1 2 false, .destroy 1 2] rs ∧
      rs.map Out.result = [true, true, true, false, true, true, false, true, true, true] :=
  ⟨⟨trivial, trivial, rfl, rfl, rfl, rfl, rfl, ⟨.mutex, rfl⟩, rfl, ⟨.mutex, rfl⟩, trivial⟩, _, _, rfl,
    ⟨trivial, trivial, rfl, rfl, rfl, trivial, trivial, trivial, trivial, trivial, trivial⟩, rfl⟩

/-- The full claim is false: `Create` on a mutex that is created loses the handle. -/
theorem win_mutex_create_leaks : ∃ rs w k, LegalAll [] [.construct .mutex, .mutexCreate 0 1 none false, .mutexCreate 0 1 none false, .destroy 0 1] ∧
    exec W.init [.construct .mutex, .mutexCreate 0 1 none false, .mutexCreate 0 1 none false, .destroy 0 1] = .ok (rs, w) ∧
    (∀ (i : Nat) (o : Obj), w.objs[i]? ≠ some (some o)) ∧ Open w 0 k := by
  refine ⟨_, _, 0, ⟨trivial, rfl, rfl, ⟨.mutex, rfl⟩, trivial⟩, rfl, fun i o => ?_, rfl⟩
  match i with
  | 0 => exact fun e => nomatch e
  | i + 1 => exact fun e => nomatch e

/-! ## Names -/

/-- Two objects of a class use the same kernel objects if and only if they were created under the same name, for `SharedMem`
also with the same size modulo 2^32. -/
theorem win_shared_partial (ops : List Op) (hl : LegalAll [] ops) {rs w} (h : exec W.init ops = .ok (rs, w)) {i j : Nat} (hij : i ≠ j) {a b : Made}
    (ha : madeAll (fun _ => none) ops rs i = some a) (hb : madeAll (fun _ => none) ops rs j = some b) (hab : a.cls = b.cls)
    {s : Nat} (hs : s < a.cls.slots) {k k' : Nat} (hk : Ref w i s k) (hk' : Ref w j s k') :
    k = k' ↔ ∃ n, a.name = some n ∧ b.name = some n ∧ (a.cls = .mem → a.size % 4294967296 = b.size % 4294967296) :=
  (reach hl h).shared hij ha hb hab hs hk hk'

/-- A successful `Semaphore::Create` gives the semaphore of another object as it is, or a new one with the count asked for. -/
theorem win_sem_create (ops : List Op) (hl : LegalAll [] ops) {rs w} (h : exec W.init ops = .ok (rs, w)) {i : Nat}
    (hc : (ops.foldl classes [])[i]? = some (some .sem)) {name : Option Str} {val : Int} {fails : Bool} {r w'}
    (hs : step w (.semCreate i name val fails) = .ok (r, w')) (hr : r.result = true) :
    Opened w w' i name (.sem val.toNat val.toNat) := by
  obtain ⟨r', w2, h1, _, _, _, h5⟩ := semCreate_ok (reach hl h) hc name val fails
  have h1 : step w (.semCreate i name val fails) = .ok (⟨r', none⟩, w2) := plain_ok h1
  rw [h1] at hs
  cases hs
  exact h5 hr

/-- A successful `Event::Create` gives the event of another object as it is, or a new one as asked for. -/
theorem win_event_create (ops : List Op) (hl : LegalAll [] ops) {rs w} (h : exec W.init ops = .ok (rs, w)) {i : Nat}
    (hc : (ops.foldl classes [])[i]? = some (some .event)) {name : Option Str} {manual prefire fails : Bool} {r w'}
    (hs : step w (.evCreate i name manual prefire fails) = .ok (r, w')) (hr : r.result = true) :
    Opened w w' i name (.event manual prefire) := by
  obtain ⟨r', w2, h1, _, _, _, h5⟩ := evCreate_ok (reach hl h) hc name manual prefire fails
  have h1 : step w (.evCreate i name manual prefire fails) = .ok (⟨r', none⟩, w2) := plain_ok h1
  rw [h1] at hs
  cases hs
  exact h5 hr

theorem closeAll_kobjs : ∀ (hs : List (Option Nat)) {w w1 : W}, closeAll w hs = .ok w1 → w1.kobjs = w.kobjs ∧ ∀ k, alive w1 k = true → alive w k = true
  | [], w, w1, h => by cases h; exact ⟨rfl, fun _ h => h⟩
  | none :: hs, w, w1, h => closeAll_kobjs hs h
  | some g :: hs, w, w1, h => by
    rw [closeAll] at h
    unfold close at h
    cases e : handle w g with
    | error _ => rw [e] at h; cases h
    | ok k =>
      rw [e, ok_bind, ok_bind] at h
      obtain ⟨h1, h2⟩ := closeAll_kobjs hs h
      refine ⟨h1, fun k' hk => ?_⟩
      have := alive_iff.1 (h2 k' hk)
      rcases this with ⟨x, e⟩ | e
      · exact alive_iff.2 (.inl ⟨x, (set_get.1 e).2⟩)
      · exact alive_iff.2 (.inr e)

theorem kcreate_some {w : W} {name : Option Str} {st : KSt}
    (hn : ∀ n, name = some n → ∀ (k : Nat) (o : KObj), alive w k = true → w.kobjs[k]? = some o → o.name = some n → o.st.kind = st.kind) :
    (kcreate w name st false).2.isSome = true := by
  unfold kcreate
  rw [if_neg (by decide)]
  cases name with
  | none => rfl
  | some n =>
    dsimp only
    split
    · rename_i hs
      obtain ⟨k, hk⟩ := Option.isSome_iff_exists.1 hs
      obtain ⟨ha, o, ho, hno⟩ := find_some hk
      unfold kopen
      rw [hk]
      dsimp only
      rw [ho]
      dsimp only
      rw [if_pos (hn n rfl k o ha ho hno)]
      rfl
    · rfl

theorem alive_live {w : W} {k : Nat} (h : alive w k = true) : Live w k := alive_iff.1 h

/-- `Semaphore::Create` with a positive count succeeds, if the system call does and the name is not that of a kernel object of
another kind. -/
theorem win_sem_create_ok (ops : List Op) (hl : LegalAll [] ops) {rs w} (h : exec W.init ops = .ok (rs, w)) {i : Nat}
    (hc : (ops.foldl classes [])[i]? = some (some .sem)) {name : Option Str} {val : Int} (hv : 0 < val)
    (hn : ∀ n, name = some n → ∀ (k : Nat) (o : KObj), Live w k → w.kobjs[k]? = some o → o.name = some n → ∃ c m, o.st = .sem c m) :
    ∃ w', step w (.semCreate i name val false) = .ok (⟨true, none⟩, w') := by
  have hi := reach hl h
  obtain ⟨o, ho, _⟩ := hi.obj hc
  obtain ⟨w1, e1, c1, _⟩ := closeAll_live hi ho
  obtain ⟨q1, q2⟩ := closeAll_kobjs _ e1
  have : (kcreate w1 name (.sem val.toNat val.toNat) false).2.isSome = true := by
    refine kcreate_some (fun n e k ob ha hk hno => ?_)
    obtain ⟨c, m, e2⟩ := hn n e k ob (alive_live (q2 k ha)) (by rw [← q1]; exact hk) hno
    rw [e2]; rfl
  unfold step semCreate
  dsimp only
  rw [getObj_ok ho, ok_bind, e1, ok_bind, show (false || decide (val ≤ 0)) = false by simp; omega]
  rw [this]
  exact ⟨_, rfl⟩

/-- `Semaphore::Create` with a count that is not positive fails. -/
theorem win_sem_create_zero (ops : List Op) (hl : LegalAll [] ops) {rs w} (h : exec W.init ops = .ok (rs, w)) {i : Nat}
    (hc : (ops.foldl classes [])[i]? = some (some .sem)) (name : Option Str) {val : Int} (hv : val ≤ 0) (fails : Bool) :
    ∃ w', step w (.semCreate i name val fails) = .ok (⟨false, none⟩, w') := by
  have hi := reach hl h
  obtain ⟨o, ho, _⟩ := hi.obj hc
  obtain ⟨w1, e1, c1, _⟩ := closeAll_live hi ho
  unfold step semCreate
  dsimp only
  rw [getObj_ok ho, ok_bind, e1, ok_bind, show (fails || decide (val ≤ 0)) = true by simp [hv]]
  exact ⟨_, rfl⟩

/-- `Event::Create` succeeds, if the system call does and the name is not that of a kernel object of another kind. -/
theorem win_event_create_ok (ops : List Op) (hl : LegalAll [] ops) {rs w} (h : exec W.init ops = .ok (rs, w)) {i : Nat}
    (hc : (ops.foldl classes [])[i]? = some (some .event)) {name : Option Str} (manual prefire : Bool)
    (hn : ∀ n, name = some n → ∀ (k : Nat) (o : KObj), Live w k → w.kobjs[k]? = some o → o.name = some n → ∃ c m, o.st = .event c m) :
    ∃ w', step w (.evCreate i name manual prefire false) = .ok (⟨true, none⟩, w') := by
  have hi := reach hl h
  obtain ⟨o, ho, _⟩ := hi.obj hc
  obtain ⟨w1, e1, c1, _⟩ := closeAll_live hi ho
  obtain ⟨q1, q2⟩ := closeAll_kobjs _ e1
  have : (kcreate w1 name (.event manual prefire) false).2.isSome = true := by
    refine kcreate_some (fun n e k ob ha hk hno => ?_)
    obtain ⟨c, m, e2⟩ := hn n e k ob (alive_live (q2 k ha)) (by rw [← q1]; exact hk) hno
    rw [e2]; rfl
  unfold step evCreate
  dsimp only
  rw [getObj_ok ho, ok_bind, e1, ok_bind]
  rw [this]
  exact ⟨_, rfl⟩

/-- Two semaphores under one name: the second count is ignored, both use one kernel object. -/
example : ∃ rs w, LegalAll [] [.construct .sem, .construct .sem, .semCreate 0 (some [97]) 1 false, .semCreate 1 (some [97]) 5 false, .semLock 1 false,
      .semLock 0 false] ∧
    exec W.init [.construct .sem, .construct .sem, .semCreate 0 (some [97]) 1 false, .semCreate 1 (some [97]) 5 false, .semLock 1 false,
      .semLock 0 false] = .ok (rs, w) ∧ rs.map Out.result = [true, true, true, true, true, false] ∧ Ref w 0 0 0 ∧ Ref w 1 0 0 :=
  ⟨_, _, ⟨trivial, trivial, rfl, rfl, rfl, rfl, trivial⟩, rfl, rfl, ⟨0, ⟨_, rfl, rfl⟩, rfl⟩, ⟨1, ⟨_, rfl, rfl⟩, rfl⟩⟩

/-- The full claim is false: a semaphore can have the kernel object of a reader-writer lock. -/
theorem win_shared_other_class : ∃ rs w, LegalAll [] [.construct .rw, .construct .sem, .rwCreate 0 (some [97]) false false false false,
      .semCreate 1 (some ([97] ++ rwSuffix 3)) 1 false, .semLock 1 false] ∧
    exec W.init [.construct .rw, .construct .sem, .rwCreate 0 (some [97]) false false false false,
      .semCreate 1 (some ([97] ++ rwSuffix 3)) 1 false, .semLock 1 false] = .ok (rs, w) ∧ rs.map Out.result = [true, true, true, true, true] ∧
    Ref w 0 3 3 ∧ Ref w 1 0 3 :=
  ⟨_, _, ⟨trivial, trivial, rfl, rfl, rfl, trivial⟩, rfl, rfl, ⟨3, ⟨_, rfl, rfl⟩, rfl⟩, ⟨4, ⟨_, rfl, rfl⟩, rfl⟩⟩

/-- And an event cannot be created under the name of a semaphore. -/
theorem win_name_clash : ∃ rs w, LegalAll [] [.construct .sem, .construct .event, .semCreate 0 (some [97]) 1 false, .evCreate 1 (some [97]) true true false] ∧
    exec W.init [.construct .sem, .construct .event, .semCreate 0 (some [97]) 1 false, .evCreate 1 (some [97]) true true false] = .ok (rs, w) ∧
    rs.map Out.result = [true, true, true, false] :=
  ⟨_, _, ⟨trivial, trivial, rfl, rfl, trivial⟩, rfl, rfl⟩

end Verif.WinSync
