import Verif.Utf8.Search
import Verif.Utf8.Props

/-! # Property C118: searching UTF-8 text -/

namespace Verif.Utf8

open Spec

/-- Full statement of C118 for `FindCodePoint`: true exactly if the code point occurs (unless combining marks are allowed:
not followed by one, and not itself one), and the position given is that of the first such occurrence. -/
def SpecFind (cps : List Nat) (cp : Nat) (allow : Bool) (r : Option Nat) : Prop :=
  let fits := fun i => cps[i]? = some cp ∧ (allow = true ∨ (¬ Combining cp ∧ ∀ c, cps[i + 1]? = some c → ¬ Combining c))
  match r with
  | none => ∀ i, ¬ fits i
  | some pos => ∃ i, fits i ∧ (∀ j, j < i → ¬ fits j) ∧ pos = (text 1 (cps.take i)).length

/-- Full statement for a loop over `NextASCIICodePoint`: the ASCII characters that no combining mark follows. -/
def SpecAscii : List Nat → List Nat → Prop
  | [], r => r = []
  | c :: cps, r =>
    if c < 0x80 ∧ ∀ d, cps.head? = some d → ¬ Combining d then ∃ r', r = c :: r' ∧ SpecAscii cps r' else SpecAscii cps r

/-! ## As compiled -/

/-- **C118, negation.**  Neither function ever returns from the start of a string: `NextCodePoint` calls `strlen`, which
is `Util::strlen`, which calls `NextCodePoint` (unless `FindCodePoint` refuses a combining mark at once). -/
theorem search_never_returns (depth : Nat) (s : List Nat) (cp : Nat) (allow : Bool) (h : allow = true ∨ isCombining cp = false)
    (size next : Nat) (comb : Bool) :
    findWith (strlen depth s) cp s allow = .error .diverges ∧
    nextASCII (strlen depth s) s ⟨next, 0, size, comb⟩ = .error .diverges := by
  rw [strlen_never_returns]
  constructor
  · unfold findWith
    rw [if_neg (by rcases h with h | h <;> simp [h]), findLoop, nextCP, if_neg (by simp)]
    rfl
  · unfold nextASCII
    rw [asciiLoop, nextCP, if_neg (by simp)]
    rfl

/-! ## With the C library's `strlen` -/

/-- The caller's variables before code point number `i` of a text is delivered. -/
def At (cps : List Nat) (i : Nat) (p : P) : Prop :=
  if i = 0 then p.pos = 0
  else p.pos = (text 1 (cps.take (i + 1))).length ∧ p.size = (text 1 cps).length ∧ p.comb = false ∧
    match cps[i]? with
    | some c => p.next = lead c
    | none => p.next = 0

theorem text1_append (a b : List Nat) : text 1 (a ++ b) = text 1 a ++ text 1 b := by
  unfold text; rw [List.flatMap_append]

theorem text1_pos {a : List Nat} (h : a ≠ []) : 0 < (text 1 a).length := by
  cases a with
  | nil => exact absurd rfl h
  | cons c a => have := enc8_pos c; rw [text1_cons]; simp; omega

theorem take_drop_text (cps : List Nat) (n : Nat) : text 1 (cps.take n) ++ text 1 (cps.drop n) = text 1 cps := by
  rw [← text1_append, List.take_append_drop]

/-- What `peek` leaves after code point `i` has been passed. -/
theorem peek_at (cps : List Nat) (hv : ∀ c ∈ cps, c ≤ 0x10FFFF ∧ c ≠ 0) (i next : Nat) (comb : Bool) (hi : i < cps.length) :
    ∃ q, peek (text 1 cps ++ [0]) ⟨next, (text 1 (cps.take (i + 1))).length, (text 1 cps).length, comb⟩ = .ok q ∧
      At cps (i + 1) q ∧ q.comb = false := by
  have hvd : ∀ c ∈ cps.drop (i + 1), c ≤ 0x10FFFF ∧ c ≠ 0 := fun c hc => hv c (List.mem_of_mem_drop hc)
  have ht := take_drop_text cps (i + 1)
  rcases Nat.lt_or_ge (i + 1) cps.length with hl | hl
  · have hd := List.drop_eq_getElem_cons hl
    rw [hd] at hvd ht
    have h := peek_text (text 1 (cps.take (i + 1))) (cps[i + 1] :: cps.drop (i + 1 + 1)) next (text 1 cps).length comb
      hvd (by rw [ht]; exact Nat.le_refl _)
    dsimp only at h
    rw [ht] at h
    refine ⟨_, h, ?_, rfl⟩
    unfold At
    rw [if_neg (by omega), List.getElem?_eq_getElem hl]
    refine ⟨?_, rfl, rfl, rfl⟩
    show (text 1 (cps.take (i + 1))).length + (enc8 cps[i + 1]).length = _
    rw [List.take_add_one (i := i + 1), List.getElem?_eq_getElem hl, text1_append, List.length_append]
    simp [text, enc]
  · have hd := List.drop_eq_nil_of_le hl
    rw [hd] at hvd ht
    have h := peek_text (text 1 (cps.take (i + 1))) [] next (text 1 cps).length comb hvd (by rw [ht]; exact Nat.le_refl _)
    dsimp only at h
    rw [ht] at h
    refine ⟨_, h, ?_, rfl⟩
    unfold At
    rw [if_neg (by omega), List.getElem?_eq_none hl]
    refine ⟨?_, rfl, rfl, rfl⟩
    show (text 1 (cps.take (i + 1))).length = _
    rw [List.take_of_length_le hl, List.take_of_length_le (by omega)]

theorem next_at (cps : List Nat) (hv : ∀ c ∈ cps, c ≤ 0x10FFFF ∧ c ≠ 0) (i : Nat) (p : P) (hp : At cps i p)
    (c : Nat) (hc : cps[i]? = some c) :
    ∃ q, nextCP (.ok (text 1 cps).length) (text 1 cps ++ [0]) p = .ok (true, lead c, q) ∧ At cps (i + 1) q ∧ q.comb = false := by
  obtain ⟨hi, hg⟩ := List.getElem?_eq_some_iff.1 hc
  have hcv := hv c (List.mem_of_getElem? hc)
  cases i with
  | zero =>
    cases cps with
    | nil => simp at hi
    | cons d cps =>
      have : d = c := by simpa using hc
      subst this
      have hp0 : p.pos = 0 := hp
      have e0 : rd (text 1 (d :: cps) ++ [0]) 0 = .ok (lead d) := by
        have := rd_enc [] (text 1 cps ++ [0]) d
        rw [text1_cons, List.append_assoc]
        exact this
      have e1 : advance (text 1 (d :: cps) ++ [0]) (lead d) 0 (text 1 (d :: cps)).length = .ok (some (enc8 d).length) := by
        have := advance_enc [] (text 1 cps ++ [0]) d hcv.1 (text 1 (d :: cps)).length (by rw [text1_cons]; simp)
        rw [text1_cons, List.append_assoc]
        simpa [text1_cons] using this
      obtain ⟨q, h1, h2, h3⟩ := peek_at (d :: cps) hv 0 p.next false hi
      refine ⟨q, ?_, h2, h3⟩
      unfold nextCP
      rw [if_neg (by simp [hp0]), ok_bind]
      simp only
      rw [e0, ok_bind, if_neg (lead_pos hcv.2), e1, ok_bind]
      simp only
      rw [isCombining_byte (lead_lt hcv.1), if_neg Bool.false_ne_true]
      have : (text 1 ((d :: cps).take (0 + 1))).length = (enc8 d).length := by simp [text, enc]
      rw [this] at h1
      rw [h1, ok_bind]
  | succ i =>
    unfold At at hp
    rw [if_neg (by omega), hc] at hp
    obtain ⟨p1, p2, p3, p4⟩ := hp
    obtain ⟨q, h1, h2, h3⟩ := peek_at cps hv (i + 1) p.next p.comb hi
    refine ⟨q, ?_, h2, h3⟩
    have hpos : 0 < (text 1 (cps.take (i + 1 + 1))).length :=
      text1_pos (by intro h; have := congrArg List.length h; rw [List.length_take, List.length_nil] at this; omega)
    unfold nextCP
    rw [if_pos (by omega), if_neg (by rw [p4]; exact lead_pos hcv.2)]
    rw [show p = ⟨p.next, (text 1 (cps.take (i + 1 + 1))).length, (text 1 cps).length, p.comb⟩ by
      rw [← p1, ← p2], h1, ok_bind, p4]

theorem next_over (cps : List Nat) (i : Nat) (p : P) (hp : At cps i p) (hi : i = cps.length) :
    ∃ c q, nextCP (.ok (text 1 cps).length) (text 1 cps ++ [0]) p = .ok (false, c, q) := by
  subst hi
  unfold At at hp
  split at hp
  · rename_i h
    have : cps = [] := List.length_eq_zero_iff.1 h
    subst this
    unfold nextCP
    rw [if_neg (by simp [hp])]
    exact ⟨_, _, rfl⟩
  · rename_i h
    rw [List.getElem?_eq_none (Nat.le_refl _)] at hp
    obtain ⟨p1, -, -, p4⟩ := hp
    have hpos : 0 < (text 1 (cps.take (cps.length + 1))).length :=
      text1_pos (by intro h'; have := congrArg List.length h'; simp at this; exact h (by simp [this]))
    unfold nextCP
    rw [if_pos (by omega), if_pos p4]
    exact ⟨_, _, rfl⟩

theorem findLoop_at (cps : List Nat) (hv : ∀ c ∈ cps, c ≤ 0x10FFFF ∧ c ≠ 0) (cp : Nat) (allow : Bool) :
    ∀ (k i : Nat) (p : P), At cps i p → i ≤ cps.length → cps.length < i + k →
    (findLoop (.ok (text 1 cps).length) cp allow (text 1 cps ++ [0]) k p = .ok none ∧
      ∀ j c, i ≤ j → cps[j]? = some c → lead c ≠ cp) ∨
    ∃ j c, i ≤ j ∧ cps[j]? = some c ∧ lead c = cp ∧ (∀ n d, i ≤ n → n < j → cps[n]? = some d → lead d ≠ cp) ∧
      findLoop (.ok (text 1 cps).length) cp allow (text 1 cps ++ [0]) k p = .ok (some (text 1 (cps.take (j + 2))).length) := by
  intro k
  induction k with
  | zero => intro i p h1 h2 h3; omega
  | succ k ih =>
    intro i p h1 h2 h3
    unfold findLoop
    rcases Nat.lt_or_ge i cps.length with hi | hi
    · obtain ⟨q, e, hq, hc⟩ := next_at cps hv i p h1 _ (List.getElem?_eq_getElem hi)
      rw [e, ok_bind]
      simp only [if_true]
      by_cases hl : lead cps[i] = cp
      · right
        refine ⟨i, cps[i], Nat.le_refl _, List.getElem?_eq_getElem hi, hl, fun n d a b => by omega, ?_⟩
        rw [if_pos ⟨hl, .inr hc⟩]
        unfold At at hq
        rw [if_neg (by omega)] at hq
        rw [hq.1]
      · rw [if_neg (by simp [hl])]
        rcases ih (i + 1) q hq (by omega) (by omega) with ⟨a1, a2⟩ | ⟨j, c, b1, b2, b3, b4, b5⟩
        · refine .inl ⟨a1, fun j c hj hc' => ?_⟩
          rcases Nat.eq_or_lt_of_le hj with h | h
          · subst h
            rw [List.getElem?_eq_getElem hi] at hc'
            cases hc'; exact hl
          · exact a2 j c h hc'
        · refine .inr ⟨j, c, by omega, b2, b3, fun n d h4 h5 h6 => ?_, b5⟩
          rcases Nat.eq_or_lt_of_le h4 with h | h
          · subst h
            rw [List.getElem?_eq_getElem hi] at h6
            cases h6; exact hl
          · exact b4 n d h h5 h6
    · left
      obtain ⟨c, q, e⟩ := next_over cps i p h1 (by omega)
      rw [e, ok_bind]
      refine ⟨rfl, fun j c hj hc => ?_⟩
      rw [List.getElem?_eq_none (by omega)] at hc; cases hc

theorem length_le_text (cps : List Nat) : cps.length ≤ (text 1 cps).length := by
  induction cps with
  | nil => simp
  | cons e cps ih => have := enc8_pos e; rw [text1_cons]; simp; omega

/-- The bytes that begin the UTF-8 form of a code point (the standard's table). -/
theorem lead_enc8 (c : Nat) : (enc8 c).head? = some (lead c) := by
  obtain ⟨t, h⟩ := enc8_lead c
  rw [h]; rfl

/-- **C118 (partial), `FindCodePoint` with the C library's `strlen`, on every valid text.**  What is found is not the code
point but the first sequence whose first byte is the number asked for, and the position given is the end of the sequence
after it (or the end of the text). -/
theorem find_is_partial (cps : List Nat) (hv : ∀ c ∈ cps, Valid c ∧ c ≠ 0) (cp : Nat) (allow : Bool)
    (h : allow = true ∨ ¬ Combining cp) :
    (findWith (.ok (text 1 cps).length) cp (text 1 cps ++ [0]) allow = .ok none ∧ ∀ c ∈ cps, (enc8 c).head? ≠ some cp) ∨
    ∃ j c, cps[j]? = some c ∧ (enc8 c).head? = some cp ∧
      (∀ n d, n < j → cps[n]? = some d → (enc8 d).head? ≠ some cp) ∧
      findWith (.ok (text 1 cps).length) cp (text 1 cps ++ [0]) allow = .ok (some (text 1 (cps.take (j + 2))).length) := by
  have hl := length_le_text cps
  have hv' : ∀ c ∈ cps, c ≤ 0x10FFFF ∧ c ≠ 0 := fun c hc => ⟨(hv c hc).1.1, (hv c hc).2⟩
  have hc : ¬ (allow = false ∧ isCombining cp = true) := by
    rintro ⟨a, b⟩
    rcases h with h | h
    · rw [a] at h; cases h
    · exact h ((isCombining_iff cp).1 b)
  unfold findWith
  rw [if_neg hc]
  rcases findLoop_at cps hv' cp allow ((text 1 cps ++ [0]).length + 1) 0 ⟨0, 0, 0, false⟩ rfl (by omega)
    (by simp; omega) with ⟨a1, a2⟩ | ⟨j, c, b1, b2, b3, b4, b5⟩
  · refine .inl ⟨a1, fun c hc => ?_⟩
    obtain ⟨j, hj, e⟩ := List.getElem_of_mem hc
    rw [lead_enc8]
    intro e'
    exact a2 j c (by omega) (by rw [List.getElem?_eq_getElem hj, e]) (by simpa using e')
  · refine .inr ⟨j, c, b2, by rw [lead_enc8, b3], fun n d hn hd => ?_, b5⟩
    rw [lead_enc8]
    intro e'
    exact b4 n d (by omega) hn hd (by simpa using e')

/-- **C118 (partial).**  So for an ASCII character the answer is right: true exactly if it occurs.  The position is wrong,
see `find_position`. -/
theorem find_ascii_partial (cps : List Nat) (hv : ∀ c ∈ cps, Valid c ∧ c ≠ 0) (cp : Nat) (allow : Bool) (h : cp < 0x80) :
    (findWith (.ok (text 1 cps).length) cp (text 1 cps ++ [0]) allow = .ok none ∧ cp ∉ cps) ∨
    ∃ pos, findWith (.ok (text 1 cps).length) cp (text 1 cps ++ [0]) allow = .ok (some pos) ∧ cp ∈ cps := by
  have hcomb : ¬ Combining cp := by unfold Combining; omega
  have henc : (enc8 cp).head? = some cp := by unfold enc8; rw [if_pos h]; rfl
  rcases find_is_partial cps hv cp allow (.inr hcomb) with ⟨a1, a2⟩ | ⟨j, c, b1, b2, b3, b4⟩
  · exact .inl ⟨a1, fun hm => a2 cp hm henc⟩
  · refine .inr ⟨_, b4, ?_⟩
    have : c = cp := by
      unfold enc8 at b2
      split at b2
      · simpa using b2
      · split at b2
        · simp at b2; omega
        · split at b2 <;> (simp at b2; omega)
    exact this ▸ List.mem_of_getElem? b1

/-- **C118, negation.**  A code point from U+0100 on is never found, in no text. -/
theorem find_never_wide (cps : List Nat) (hv : ∀ c ∈ cps, Valid c ∧ c ≠ 0) (cp : Nat) (allow : Bool) (h : 0x100 ≤ cp) :
    findWith (.ok (text 1 cps).length) cp (text 1 cps ++ [0]) allow = .ok none := by
  by_cases hc : allow = true ∨ ¬ Combining cp
  · rcases find_is_partial cps hv cp allow hc with ⟨a1, a2⟩ | ⟨j, c, b1, b2, b3, b4⟩
    · exact a1
    · rw [lead_enc8] at b2
      have := lead_lt (hv c (List.mem_of_getElem? b1)).1.1
      simp at b2
      omega
  · unfold findWith
    rw [if_pos]
    simp only [not_or, Decidable.not_not] at hc
    exact ⟨by simpa using hc.1, (isCombining_iff cp).2 hc.2⟩

/-- **C118, negation.**  The position given for an ASCII character is never that of the character, in no text that has it
(without combining marks, where they matter). -/
theorem find_position (cps : List Nat) (hv : ∀ c ∈ cps, Valid c ∧ c ≠ 0) (cp : Nat) (h : cp < 0x80) (allow : Bool)
    (hc : allow = true ∨ ∀ c ∈ cps, ¬ Combining c) (hm : cp ∈ cps) :
    ∃ pos, findWith (.ok (text 1 cps).length) cp (text 1 cps ++ [0]) allow = .ok (some pos) ∧
      ¬ SpecFind cps cp allow (some pos) := by
  have hcomb : ¬ Combining cp := by unfold Combining; omega
  have henc : (enc8 cp).head? = some cp := by unfold enc8; rw [if_pos h]; rfl
  rcases find_is_partial cps hv cp allow (.inr hcomb) with ⟨a1, a2⟩ | ⟨j, c, b1, b2, b3, b4⟩
  · exact absurd henc (a2 cp hm)
  · refine ⟨_, b4, ?_⟩
    rintro ⟨i, ⟨e1, -⟩, e2, e3⟩
    have hcp : c = cp := by
      unfold enc8 at b2
      split at b2
      · simpa using b2
      · split at b2
        · simp at b2; omega
        · split at b2 <;> (simp at b2; omega)
    subst hcp
    have hi : i < cps.length := (List.getElem?_eq_some_iff.1 e1).1
    have hj : j < cps.length := (List.getElem?_eq_some_iff.1 b1).1
    have hij : i = j := by
      rcases Nat.lt_trichotomy i j with hl | hl | hl
      · exact absurd henc (b3 i c hl e1)
      · exact hl
      · refine absurd ⟨b1, ?_⟩ (e2 j hl)
        rcases hc with hc | hc
        · exact .inl hc
        · exact .inr ⟨hcomb, fun d hd => hc d (List.mem_of_getElem? hd)⟩
    subst hij
    have : cps.take (i + 2) = cps.take i ++ (cps.drop i).take 2 := by rw [List.take_add]
    rw [this, text1_append, List.length_append] at e3
    have : 0 < (text 1 ((cps.drop i).take 2)).length := text1_pos (by
      intro h'; have := congrArg List.length h'; rw [List.length_take, List.length_drop, List.length_nil] at this; omega)
    omega

/-- The letter "b" is found in "aéb€", at the end of the text; the euro sign is not. -/
example : findWith (.ok 7) 98 (text 1 [97, 0xE9, 98, 0x20AC] ++ [0]) false = .ok (some 7) ∧
    findWith (.ok 7) 0x20AC (text 1 [97, 0xE9, 98, 0x20AC] ++ [0]) true = .ok none ∧
    (∀ c ∈ [97, 0xE9, 98, 0x20AC], Valid c ∧ c ≠ 0) := by decide

/-! ## ASCII characters -/

theorem asciiLoop_at (cps : List Nat) (hv : ∀ c ∈ cps, c ≤ 0x10FFFF ∧ c ≠ 0) :
    ∀ (k i : Nat) (p : P), At cps i p → i ≤ cps.length → cps.length < i + k →
    (asciiLoop (.ok (text 1 cps).length) (text 1 cps ++ [0]) k p = .ok none ∧ (cps.drop i).filter (· < 0x80) = []) ∨
    ∃ j c q, i ≤ j ∧ j < cps.length ∧ At cps (j + 1) q ∧
      (cps.drop i).filter (· < 0x80) = c :: (cps.drop (j + 1)).filter (· < 0x80) ∧
      asciiLoop (.ok (text 1 cps).length) (text 1 cps ++ [0]) k p = .ok (some (c, q)) := by
  intro k
  induction k with
  | zero => intro i p h1 h2 h3; omega
  | succ k ih =>
    intro i p h1 h2 h3
    unfold asciiLoop
    rcases Nat.lt_or_ge i cps.length with hi | hi
    · obtain ⟨q, e, hq, hc⟩ := next_at cps hv i p h1 _ (List.getElem?_eq_getElem hi)
      rw [e, ok_bind]
      simp only [if_true]
      rw [List.drop_eq_getElem_cons hi]
      have hlead : lead cps[i] ≤ 0x7F ↔ cps[i] < 0x80 := by
        unfold lead
        split
        · omega
        · split
          · omega
          · split <;> omega
      by_cases hl : cps[i] < 0x80
      · right
        have : lead cps[i] = cps[i] := by unfold lead; rw [if_pos hl]
        refine ⟨i, cps[i], q, Nat.le_refl _, hi, hq, ?_, ?_⟩
        · rw [List.filter_cons, if_pos (by simpa using hl)]
        · rw [if_pos ⟨hc, hlead.2 hl⟩, this]
      · rw [if_neg (fun h => hl (hlead.1 h.2)), List.filter_cons, if_neg (by simpa using hl)]
        rcases ih (i + 1) q hq (by omega) (by omega) with a | ⟨j, c, q', b1, b2, b3, b4, b5⟩
        · exact .inl a
        · exact .inr ⟨j, c, q', by omega, b2, b3, b4, b5⟩
    · left
      obtain ⟨c, q, e⟩ := next_over cps i p h1 (by omega)
      rw [e, ok_bind]
      exact ⟨rfl, by rw [List.drop_eq_nil_of_le hi]; rfl⟩

theorem asciiWalk_at (cps : List Nat) (hv : ∀ c ∈ cps, c ≤ 0x10FFFF ∧ c ≠ 0) :
    ∀ (k i : Nat) (p : P), At cps i p → i ≤ cps.length → cps.length < i + k →
    asciiWalk (.ok (text 1 cps).length) (text 1 cps ++ [0]) k p = .ok ((cps.drop i).filter (· < 0x80)) := by
  intro k
  induction k with
  | zero => intro i p h1 h2 h3; omega
  | succ k ih =>
    intro i p h1 h2 h3
    have hl := length_le_text cps
    unfold asciiWalk nextASCII
    rcases asciiLoop_at cps hv ((text 1 cps ++ [0]).length + 1) i p h1 h2 (by simp; omega) with ⟨a, b⟩ | ⟨j, c, q, b1, b2, b3, b4, b5⟩
    · rw [a, b, ok_bind]
    · rw [b5, ok_bind]
      simp only
      rw [ih (j + 1) q b3 (by omega) (by omega), ok_bind, b4]

/-- **C118 (partial), `NextASCIICodePoint` with the C library's `strlen`.**  A loop over it gives the ASCII characters of
every valid text, all of them and in order.  Missing: those followed by a combining mark should be left out
(`next_ascii_combining`). -/
theorem next_ascii_partial (cps : List Nat) (hv : ∀ c ∈ cps, Valid c ∧ c ≠ 0) :
    asciiWalk (.ok (text 1 cps).length) (text 1 cps ++ [0]) (cps.length + 1) ⟨0, 0, 0, false⟩ = .ok (cps.filter (· < 0x80)) := by
  have := asciiWalk_at cps (fun c hc => ⟨(hv c hc).1.1, (hv c hc).2⟩) (cps.length + 1) 0 ⟨0, 0, 0, false⟩ rfl (by omega) (by omega)
  simpa using this

theorem specAscii_filter (cps : List Nat) (h : ∀ c ∈ cps, ¬ Combining c) : SpecAscii cps (cps.filter (· < 0x80)) := by
  induction cps with
  | nil => rfl
  | cons c cps ih =>
    have ih := ih (fun e he => h e (List.mem_cons_of_mem _ he))
    unfold SpecAscii
    have hh : ∀ d, cps.head? = some d → ¬ Combining d := by
      intro d hd
      exact h d (List.mem_cons_of_mem _ (List.mem_of_mem_head? hd))
    by_cases hc : c < 0x80
    · rw [if_pos ⟨hc, hh⟩, List.filter_cons, if_pos (by simpa using hc)]
      exact ⟨_, rfl, ih⟩
    · rw [if_neg (fun h => hc h.1), List.filter_cons, if_neg (by simpa using hc)]
      exact ih

/-- **C118 (partial).**  So in a text without combining marks the loop does what it should. -/
theorem next_ascii_spec_partial (cps : List Nat) (hv : ∀ c ∈ cps, Valid c ∧ c ≠ 0) (h : ∀ c ∈ cps, ¬ Combining c) :
    ∃ r, asciiWalk (.ok (text 1 cps).length) (text 1 cps ++ [0]) (cps.length + 1) ⟨0, 0, 0, false⟩ = .ok r ∧ SpecAscii cps r :=
  ⟨_, next_ascii_partial cps hv, specAscii_filter cps h⟩

/-- "aéb€c" -/
example : asciiWalk (.ok 8) (text 1 [97, 0xE9, 98, 0x20AC, 99] ++ [0]) 6 ⟨0, 0, 0, false⟩ = .ok [97, 98, 99] := by decide

theorem specAscii_length : ∀ (cps r : List Nat), SpecAscii cps r → r.length ≤ (cps.filter (· < 0x80)).length
  | [], r, h => by cases h; simp
  | c :: cps, r, h => by
    unfold SpecAscii at h
    split at h
    · rename_i hc
      obtain ⟨r', rfl, h'⟩ := h
      have := specAscii_length cps r' h'
      rw [List.filter_cons, if_pos (by simpa using hc.1)]
      simp; omega
    · have := specAscii_length cps r h
      rw [List.filter_cons]
      split
      · simp; omega
      · exact this

/-- **C118, negation.**  Wherever an ASCII character is followed by a combining mark it is given all the same. -/
theorem next_ascii_combining (a b : List Nat) (x d : Nat) (hx : x < 0x80) (hd : Combining d)
    (hv : ∀ c ∈ a ++ x :: d :: b, Valid c ∧ c ≠ 0) :
    ∃ r, asciiWalk (.ok (text 1 (a ++ x :: d :: b)).length) (text 1 (a ++ x :: d :: b) ++ [0]) ((a ++ x :: d :: b).length + 1)
      ⟨0, 0, 0, false⟩ = .ok r ∧ ¬ SpecAscii (a ++ x :: d :: b) r := by
  refine ⟨_, next_ascii_partial _ hv, ?_⟩
  clear hv
  induction a with
  | nil =>
    intro h
    rw [List.nil_append] at h
    unfold SpecAscii at h
    rw [if_neg (fun h' => h'.2 d rfl hd)] at h
    have := specAscii_length _ _ h
    rw [List.filter_cons (x := x), if_pos (by simpa using hx), List.length_cons] at this
    omega
  | cons c a ih =>
    intro h
    rw [List.cons_append] at h
    unfold SpecAscii at h
    rw [List.filter_cons] at h
    split at h
    · rename_i hc
      obtain ⟨r', e, h'⟩ := h
      rw [if_pos (by simpa using hc.1)] at e
      cases e
      exact ih h'
    · by_cases hc : c < 0x80
      · rw [if_pos (by simpa using hc)] at h
        have := specAscii_length _ _ h
        rw [List.length_cons] at this
        omega
      · rw [if_neg (by simpa using hc)] at h
        exact ih h

example : (∀ c ∈ [98] ++ 101 :: 0x301 :: [99], Valid c ∧ c ≠ 0) ∧ Combining 0x301 := by decide

end Verif.Utf8
