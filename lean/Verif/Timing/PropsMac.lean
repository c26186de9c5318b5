import Verif.Timing.Mac
import Verif.Timing.Props

/-! # Property theorems: deadlines of timed waits on macOS (C146) -/

namespace Verif.Timing.Mac

/-- C146 (partial): until the year 2106, a timed wait gives up at once if the clock cannot be read, otherwise its deadline is
a valid time, exactly the given number of milliseconds after now. -/
theorem mac_deadline_partial (p : Ports) (a : Answers) (wait : Nat) (hw : wait < 4294967296)
    (ht : ∀ t, a.time = some t → Valid t ∧ 0 ≤ t.sec ∧ t.sec < 4294967296) :
    ∃ r p', deadline p a wait = .ok (r, p') ∧
      (r = none ↔ a.service = false ∨ a.time = none ∨ a.dealloc = false) ∧
      ∀ d t, r = some d → a.time = some t → Valid d ∧ nanos d = nanos t + wait * 1000000 := by
  obtain ⟨sv, tm, de⟩ := a
  cases sv with
  | false => exact ⟨none, _, rfl, ⟨fun _ => .inl rfl, fun _ => rfl⟩, (fun _ _ h => nomatch h)⟩
  | true =>
    cases tm with
    | none => exact ⟨none, _, rfl, ⟨fun _ => .inr (.inl rfl), fun _ => rfl⟩, (fun _ _ h => nomatch h)⟩
    | some t =>
      cases de with
      | false => exact ⟨none, _, rfl, ⟨fun _ => .inr (.inr rfl), fun _ => rfl⟩, (fun _ _ h => nomatch h)⟩
      | true =>
        obtain ⟨hv, h0, h1⟩ := ht t rfl
        have e : (⟨t.sec % 4294967296, t.frac⟩ : Stamp) = t := by
          obtain ⟨s, f⟩ := t
          dsimp only at h0 h1 ⊢
          rw [Int.emod_eq_of_lt h0 h1]
        obtain ⟨d, hd, hv', hn⟩ := deadline_exact t wait hw hv (by omega) (by
          obtain ⟨f0, f1⟩ := hv
          unfold nanos
          omega)
        refine ⟨some d, ⟨p.host + 1, p.clock⟩, ?_, ⟨(fun h => nomatch h), fun h => ?_⟩, fun d' t' e1 e2 => ?_⟩
        · simp [deadline, clock, e, hd, ok_bind]
        · rcases h with h | h | h <;> cases h
        · cases e1
          cases e2
          exact ⟨hv', hn⟩

/-- Negation of C146: in the year 2106 the seconds begin again at 0, so the deadline of every wait is long past. -/
theorem mac_clock_wraps (p : Ports) : deadline p ⟨true, some ⟨4294967296, 0⟩, true⟩ 5000 =
    .ok (some ⟨5, 0⟩, ⟨p.host + 1, p.clock⟩) := by
  simp [deadline, clock, Timing.deadline, long, ok_bind]

/-- The rights to the clock port are what they were, if no call after the first fails. -/
theorem mac_clock_port_partial (p : Ports) (a : Answers) (h : a.service = true → a.time ≠ none ∧ a.dealloc = true) :
    (clock p a).2.clock = p.clock := by
  obtain ⟨sv, tm, de⟩ := a
  cases sv with
  | false => rfl
  | true =>
    obtain ⟨h1, h2⟩ := h rfl
    cases tm with
    | none => exact absurd rfl h1
    | some t =>
      cases h2
      rfl

/-- Negation of C146: if the clock does not give the time, the right to its port is kept. -/
theorem mac_clock_port_kept (p : Ports) (de : Bool) :
    (clock p ⟨true, none, de⟩).1 = none ∧ (clock p ⟨true, none, de⟩).2.clock = p.clock + 1 := ⟨rfl, rfl⟩

/-- Negation of C146: whatever the system answers, every reading of the clock keeps one more right to the host port. -/
theorem mac_host_port_kept (as : List Answers) : ∀ p : Ports, (clocks p as).host = p.host + as.length := by
  induction as with
  | nil => intro p; rfl
  | cons a as ih =>
    intro p
    rw [clocks, ih]
    have : (clock p a).2.host = p.host + 1 := by
      unfold clock
      dsimp only
      split
      · rfl
      · split
        · rfl
        · split <;> rfl
    rw [this, List.length_cons]
    omega

/-- Half a second from 1000.7 s. -/
example : deadline ⟨3, 1⟩ ⟨true, some ⟨1000, 700000000⟩, true⟩ 500 = .ok (some ⟨1001, 200000000⟩, ⟨4, 1⟩) := by
  decide

example : Valid ⟨1000, 700000000⟩ ∧ (0 : Int) ≤ 1000 ∧ (1000 : Int) < 4294967296 := by
  unfold Valid; decide

end Verif.Timing.Mac
