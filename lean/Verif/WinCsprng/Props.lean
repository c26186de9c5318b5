import Verif.WinCsprng.Model
import Verif.Csprng.Props

/-! # Property C116: random bytes and integers on Windows -/

namespace Verif.WinCsprng

open Verif.Csprng (Run getInteger getInteger_in_range getInteger_stream Yields Rejected)

/-- What the system promises about `RtlGenRandom`: a successful call writes as many bytes as it was asked for. -/
def Honest (gen : Gen) : Prop := ∀ n bytes, gen n = some bytes → bytes.length = n

/-- Full statement of C116 for one call: true is returned only if all `size` bytes of the destination were
produced by the generator; otherwise the destination is as before. -/
def Spec116 (gen : Gen) (buf : List UInt8) (size : Nat) (r : Bool × List UInt8) : Prop :=
  if r.1 then ∃ bytes, gen size = some bytes ∧ bytes.length = size ∧ r.2 = bytes ++ buf.drop size
  else r.2 = buf

/-- **C116 (partial), bytes.**  For every request below 4 GiB: true is returned exactly when the generator was
found and delivered, all requested bytes are then the generator's and nothing behind them is touched; otherwise
the destination is unchanged.  Missing: larger requests, see `win_getBytes_short`. -/
theorem win_getBytes_partial (module function : Bool) (gen : Gen) (h : Honest gen) (buf : List UInt8) (size : Nat)
    (hs : size < 2 ^ 32) :
    Spec116 gen buf size (getBytes (construct module function) gen buf size) ∧
    ((getBytes (construct module function) gen buf size).1 = true ↔
      module = true ∧ function = true ∧ gen size ≠ none) := by
  have hu : ulong size = size := Nat.mod_eq_of_lt hs
  unfold getBytes Spec116 construct
  rw [hu]
  cases module
  · simp
  cases function
  · simp
  cases hg : gen size with
  | none => simp
  | some bytes =>
    refine ⟨?_, by simp⟩
    simp [Csprng.fill, h size bytes hg]

/-- Bytes asked for by a small request, generated; the byte behind is untouched. -/
example : getBytes (construct true true) (fun n => some (List.replicate n 7)) [1, 2, 3] 2 = (true, [7, 7, 3]) := by
  decide

/-- **C116, negation.**  A request of 4 GiB or more is reported as successful although every byte from
`size mod 2^32` on is what it was before the call (for exactly 4 GiB: every byte). -/
theorem win_getBytes_short (gen : Gen) (h : Honest gen) (buf : List UInt8) (size : Nat) (hs : 2 ^ 32 ≤ size)
    (hb : buf.length = size) (hg : gen (size % 2 ^ 32) ≠ none) :
    (getBytes true gen buf size).1 = true ∧ size % 2 ^ 32 < size ∧
    ∀ i, size % 2 ^ 32 ≤ i → (getBytes true gen buf size).2[i]? = buf[i]? := by
  unfold getBytes ulong
  cases hg' : gen (size % 2 ^ 32) with
  | none => exact absurd hg' hg
  | some bytes =>
    have hl := h _ _ hg'
    refine ⟨by simp, by omega, ?_⟩
    intro i hi
    show (bytes ++ buf.drop bytes.length)[i]? = buf[i]?
    rw [List.getElem?_append_right (by omega), List.getElem?_drop]
    congr 1
    omega

/-- There are such requests: a buffer of 4 GiB and an honest generator that always delivers. -/
example : ∃ (gen : Gen) (buf : List UInt8), Honest gen ∧ buf.length = 2 ^ 32 ∧ gen (2 ^ 32 % 2 ^ 32) ≠ none :=
  ⟨fun n => some (List.replicate n 7), List.replicate (2 ^ 32) 0,
    (fun n bytes h => by cases h; simp), List.length_replicate, by simp⟩

/-- Hence the full claim fails for a generator that always delivers and a buffer of 4 GiB. -/
theorem win_getBytes_spec_fails (b c : UInt8) (hbc : b ≠ c) :
    ¬ Spec116 (fun n => some (List.replicate n b)) (List.replicate (2 ^ 32) c) (2 ^ 32)
      (getBytes true (fun n => some (List.replicate n b)) (List.replicate (2 ^ 32) c) (2 ^ 32)) := by
  generalize hN : 2 ^ 32 = N
  have hpos : 0 < N := by omega
  obtain ⟨h1, -, h3⟩ := win_getBytes_short (fun n => some (List.replicate n b))
    (fun n bytes h => by cases h; simp) (List.replicate N c) N (by omega) (by simp) (by simp)
  unfold Spec116
  rw [h1, if_pos rfl]
  rintro ⟨bytes, e1, e2, e3⟩
  have h := h3 0 (by subst hN; simp)
  rw [e3] at h
  cases e1
  rw [List.getElem?_append_left (by simpa using hpos), List.getElem?_replicate, List.getElem?_replicate,
    if_pos hpos, if_pos hpos] at h
  cases h
  exact hbc rfl

/-- The eight bytes of a machine word. -/
def IsWord (bytes : List UInt8) (w : BitVec 64) : Prop :=
  bytes.length = 8 ∧ ∀ (i : Nat) (b : UInt8), bytes[i]? = some b → b.toNat = w.toNat / 256 ^ i % 256

theorem fold_bytes : ∀ (l : List UInt8),
    (l.foldr (fun b acc => b.toNat + 256 * acc) 0) < 256 ^ l.length ∧
    ∀ (i : Nat) (b : UInt8), l[i]? = some b →
      b.toNat = (l.foldr (fun b acc => b.toNat + 256 * acc) 0) / 256 ^ i % 256 := by
  intro l
  induction l with
  | nil => exact ⟨by simp, fun i b h => by simp at h⟩
  | cons a l ih =>
    obtain ⟨h1, h2⟩ := ih
    have ha := a.toNat_lt
    simp only [List.foldr_cons, List.length_cons]
    generalize l.foldr (fun (b : UInt8) acc => b.toNat + 256 * acc) 0 = x at h1 h2
    refine ⟨?_, ?_⟩
    · rw [Nat.pow_succ]; omega
    · intro i b h
      cases i with
      | zero =>
        simp at h
        subst h
        simp
      | succ i =>
        rw [List.getElem?_cons_succ] at h
        rw [h2 i b h, Nat.pow_succ, Nat.mul_comm (256 ^ i) 256, ← Nat.div_div_eq_div_mul]
        congr 2
        omega

theorem word_spec (bytes : List UInt8) (h : bytes.length = 8) : IsWord bytes (word bytes) := by
  obtain ⟨h1, h2⟩ := fold_bytes bytes
  refine ⟨h, ?_⟩
  have : (word bytes).toNat = bytes.foldr (fun b acc => b.toNat + 256 * acc) 0 := by
    unfold word
    rw [BitVec.toNat_ofNat, Nat.mod_eq_of_lt]
    rw [h] at h1
    exact h1
  rw [this]
  exact h2

theorem getWord_some (gen : Gen) (h : Honest gen) (old bytes : List UInt8) (ho : old.length = 8)
    (hg : gen 8 = some bytes) : getWord true gen old = some (word bytes) := by
  have hl := h 8 bytes hg
  unfold getWord getBytes ulong
  simp only [Bool.not_true, Bool.false_eq_true, if_false]
  rw [show (8 : Nat) % 2 ^ 32 = 8 from rfl, hg]
  simp [Csprng.fill, hl, List.drop_eq_nil_of_le (Nat.le_of_eq ho)]

/-- **C116 (partial), integers.**  If `GetInteger` returns true, the generator was found, the result lies between
the bounds, and the word it was made from consists of eight bytes the generator delivered: no byte of the
variable's old content enters the result. -/
theorem win_getInt_partial (found : Bool) (mn mx : BitVec 64) (os : List (Gen × List UInt8))
    (h : ∀ o ∈ os, Honest o.1 ∧ o.2.length = 8) :
    ∃ r, getInt found mn mx os = .ok r ∧ ∀ v rest, r = .returned (some v) rest →
      found = true ∧ min mn.toNat mx.toNat ≤ v.toNat ∧ v.toNat ≤ max mn.toNat mx.toNat ∧
      ∃ o ∈ os, ∃ bytes w, o.1 8 = some bytes ∧ IsWord bytes w ∧ Yields mn mx w v := by
  obtain ⟨r, hr, hv⟩ := getInteger_in_range mn mx (os.map fun o => getWord found o.1 o.2)
  refine ⟨r, hr, ?_⟩
  intro v rest e
  obtain ⟨h1, h2⟩ := hv v rest e
  rw [e] at hr
  obtain ⟨pre, w, hos, -, hy⟩ := (getInteger_stream mn mx _ v rest).1 hr
  have hm : some w ∈ os.map fun o => getWord found o.1 o.2 := by rw [hos]; simp
  obtain ⟨o, ho, hw⟩ := List.mem_map.1 hm
  cases found with
  | false => unfold getWord getBytes at hw; simp at hw
  | true =>
    refine ⟨rfl, h1, h2, o, ho, ?_⟩
    obtain ⟨hh, hl⟩ := h o ho
    cases hg : o.1 8 with
    | none =>
      unfold getWord getBytes ulong at hw
      rw [show (8 : Nat) % 2 ^ 32 = 8 from rfl, hg] at hw
      simp at hw
    | some bytes =>
      rw [getWord_some o.1 hh o.2 bytes hl hg] at hw
      cases hw
      exact ⟨bytes, _, rfl, word_spec bytes (hh 8 bytes hg), hy⟩

/-- **C116 (partial), failure.**  Where the generator was not found or a call of it fails before a word was
accepted, `GetInteger` returns false; in particular it never loops for ever on a failing generator. -/
theorem win_getInt_fails (found : Bool) (mn mx : BitVec 64) (os : List (Gen × List UInt8)) (o : Gen × List UInt8)
    (h : found = false ∨ o.1 8 = none) (hr : ∀ w : BitVec 64, some w ∈ os.map (fun o => getWord found o.1 o.2) →
      Rejected mn mx w) (rest : List (Gen × List UInt8)) :
    ∃ l, getInt found mn mx (os ++ o :: rest) = .ok (.returned none l) := by
  have hn : getWord found o.1 o.2 = none := by
    unfold getWord getBytes ulong
    rw [show (8 : Nat) % 2 ^ 32 = 8 from rfl]
    rcases h with h | h
    · subst h; simp
    · cases found <;> simp [h]
  obtain ⟨b, -, -, -, -, -, -, en, er, -⟩ := Csprng.getInteger_num mn mx
  unfold getInt
  rw [List.map_append, List.map_cons, hn]
  generalize rest.map (fun o => getWord found o.1 o.2) = rest'
  generalize os.map (fun o => getWord found o.1 o.2) = l at hr
  induction l with
  | nil => exact ⟨_, en rest'⟩
  | cons a l ih =>
    cases a with
    | none => exact ⟨_, en _⟩
    | some w =>
      rw [List.cons_append, er w _ (hr w (by simp))]
      exact ih (fun w hw => hr w (by simp [hw]))

/-- A die thrown with the bytes `6, 9, …` (rejected: `6` is above `6 - 1`), then `3, 9, …`. -/
example : getInt true 1 6 [(fun n => some ((6 : UInt8) :: List.replicate (n - 1) 9), List.replicate 8 0),
    (fun n => some ((3 : UInt8) :: List.replicate (n - 1) 9), List.replicate 8 0)] =
      .ok (.returned (some 4) []) := by
  decide

end Verif.WinCsprng
