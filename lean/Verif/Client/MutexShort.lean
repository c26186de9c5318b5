import Verif.Client.MutexLemmas

/-! # Steps of the library have few labels -/

namespace Verif.Client

open Verif.Mutex (Label)

theorem sem_short {s : Sem.S} {a : Sem.Act} {r : Option (Sem.S × List Sem.Label)} (h : Sem.step s a = .ok r) :
    ∀ c ls, r = some (c, ls) → ls.length ≤ 1 := by
  intro c ls e
  subst e
  cases a with
  | callWait t w => simp only [Sem.step] at h; grind
  | callRelease t => simp only [Sem.step] at h; grind
  | run t p => simp only [Sem.step, Sem.run, Sem.block] at h; grind
  | fail t => simp only [Sem.step, Sem.fail] at h; grind
  | wake t z => simp only [Sem.step] at h; grind

theorem mutex_short {s : Mutex.S} {a : Mutex.Act} {r : Option (Mutex.S × List Label)} (h : Mutex.step s a = .ok r) :
    ∀ c ls, r = some (c, ls) → ls.length ≤ 2 := by
  intro c ls e
  subst e
  cases a with
  | callLock t o w => simp only [Mutex.step] at h; grind
  | callUnlock t o b => simp only [Mutex.step] at h; grind
  | run t => simp only [Mutex.step, Mutex.run, Mutex.lock, Mutex.unlock] at h; grind
  | fail t => simp only [Mutex.step, Mutex.fail] at h; grind

theorem react_short (m : Mutex.S) (l : Sem.Label) : (Mutex.Full.react m l).2.length ≤ 2 := by
  cases l <;> simp only [Mutex.Full.react] <;> grind

theorem inSem_short {c : Mutex.Full.S} {r : Option (Sem.S × List Sem.Label)}
    (h : ∀ c ls, r = some (c, ls) → ls.length ≤ 1) :
    ∀ c' ls, Mutex.Full.inSem c r = some (c', ls) → ls.length ≤ 2 := by
  intro c' ls e
  match r, h with
  | none, _ => cases e
  | some (s, []), _ => cases e; exact Nat.zero_le _
  | some (s, [l]), _ =>
    cases e
    simp only [Mutex.Full.reacts, List.append_nil]
    exact react_short _ _
  | some (s, _ :: _ :: _), h => have := h _ _ rfl; simp at this

theorem posix_short {s : Mutex.Full.S} {a : Mutex.Full.Act} {c : Mutex.Full.S} {ls : List Label}
    (h : Mutex.Full.step s a = .ok (some (c, ls))) : ls.length ≤ 2 := by
  have key : ∀ b, (do let r ← Sem.step s.s b; (Except.ok (Mutex.Full.inSem s r) : CRes _)) = .ok (some (c, ls)) →
      ls.length ≤ 2 := by
    intro b h
    cases hb : Sem.step s.s b with
    | error e => rw [hb] at h; cases h
    | ok r => rw [hb, ok_bind] at h; exact inSem_short (sem_short hb) _ _ (Except.ok.inj h)
  cases a with
  | mutex a =>
    simp only [Mutex.Full.step] at h
    split at h
    · cases h
    · cases hb : Mutex.step s.m a with
      | error e => rw [hb] at h; cases h
      | ok r =>
        rw [hb, ok_bind] at h
        match r, hb with
        | none, _ => cases h
        | some (m, l), hb => cases h; exact mutex_short hb _ _ rfl
  | enter t =>
    simp only [Mutex.Full.step] at h
    split at h
    · cases h
    · exact key _ h
  | run t p => exact key _ h
  | fail t => exact key _ h
  | wake t z => exact key _ h

theorem win_short {s : WinMutex.S} {a : WinMutex.Act} {c : WinMutex.S} {ls : List Label}
    (h : WinMutex.step s a = .ok (some (c, ls))) : ls.length ≤ 2 := by
  cases a with
  | callLock t o w => simp only [WinMutex.step] at h; grind
  | callUnlock t o b => simp only [WinMutex.step] at h; grind
  | run t => simp only [WinMutex.step, WinMutex.run, WinMutex.enter, WinMutex.leave] at h; grind
  | fail t => simp only [WinMutex.step, WinMutex.fail] at h; grind
  | die t => simp only [WinMutex.step] at h; grind

end Verif.Client
