import Verif.ShmName.Model
import Verif.ShmName.Spec

namespace Verif.ShmName
open Spec

/-! ## Numerals -/

theorem digitChar_byte (n : Nat) (h : n < 10) :
    UInt8.ofNat (Nat.digitChar n).toNat = UInt8.ofNat (48 + n) := by
  have : n = 0 ∨ n = 1 ∨ n = 2 ∨ n = 3 ∨ n = 4 ∨ n = 5 ∨ n = 6 ∨ n = 7 ∨ n = 8 ∨ n = 9 := by omega
  rcases this with h | h | h | h | h | h | h | h | h | h <;> subst h <;> rfl

theorem decimal_eq (n : Nat) : decimal n = numeral n := by
  induction n using Nat.strongRecOn with
  | ind n ih =>
    unfold decimal numeral
    by_cases h : n < 10
    · rw [if_pos h, Nat.toDigits_of_lt_base h]
      simp [digitChar_byte n h]
    · rw [if_neg h, Nat.toDigits_of_base_le (by omega) (by omega), ih (n / 10) (by omega)]
      simp [numeral, digitChar_byte (n % 10) (by omega)]

theorem numeral_length (n : Nat) (h : n < 4294967296) : (numeral n).length ≤ 10 := by
  rw [numeral, List.length_map, Nat.length_toDigits_le_iff (by omega) (by omega)]
  omega

theorem isDigit_byte (c : Char) (h : c.isDigit) :
    48 ≤ c.toNat ∧ c.toNat ≤ 57 := by
  simp [Char.isDigit, UInt32.le_iff_toNat_le] at h
  simpa using h

theorem numeral_digit (n : Nat) (b : UInt8) (h : b ∈ numeral n) : 48 ≤ b.toNat ∧ b.toNat ≤ 57 := by
  simp only [numeral, List.mem_map] at h
  obtain ⟨c, hc, rfl⟩ := h
  have := isDigit_byte c (Nat.isDigit_of_mem_toDigits (by omega) (by omega) hc)
  rw [UInt8.toNat_ofNat']
  omega

theorem map_inj {α β : Type} (f : α → β) : ∀ (l m : List α),
    (∀ a ∈ l, ∀ b ∈ m, f a = f b → a = b) → l.map f = m.map f → l = m
  | [], [], _, _ => rfl
  | [], _ :: _, _, h => by simp at h
  | _ :: _, [], _, h => by simp at h
  | a :: l, b :: m, hf, h => by
    simp only [List.map_cons, List.cons.injEq] at h
    have h1 := hf a (by simp) b (by simp) h.1
    have h2 := map_inj f l m (fun x hx y hy => hf x (by simp [hx]) y (by simp [hy])) h.2
    rw [h1, h2]

theorem numeral_inj {m n : Nat} (h : numeral m = numeral n) : m = n := by
  have h1 : Nat.toDigits 10 m = Nat.toDigits 10 n := by
    refine map_inj _ _ _ ?_ h
    intro a ha b hb e
    have h1 := isDigit_byte a (Nat.isDigit_of_mem_toDigits (by omega) (by omega) ha)
    have h2 := isDigit_byte b (Nat.isDigit_of_mem_toDigits (by omega) (by omega) hb)
    have e2 := congrArg UInt8.toNat e
    rw [UInt8.toNat_ofNat', UInt8.toNat_ofNat'] at e2
    have : a.toNat = b.toNat := by omega
    exact Char.toNat_inj.mp this
  rw [← Nat.ofDigitChars_toDigits (b := 10) (n := m) (by omega) (by omega), h1,
    Nat.ofDigitChars_toDigits (by omega) (by omega)]

theorem nums_ok (al size : Nat) :
    nums al size = .ok ([45] ++ numeral (al % 4294967296) ++ [45] ++
      numeral (size % 4294967296) ++ [45]) := by
  unfold nums
  rw [decimal_eq, decimal_eq]
  dsimp only
  rw [if_pos]
  have h1 := numeral_length (al % 4294967296) (by omega)
  have h2 := numeral_length (size % 4294967296) (by omega)
  simp
  omega

/-! ## Mixing -/

/-- What the mixing loops keep true after the characters `hist`. -/
structure MixInv (cap : Nat) (hist : List UInt8) (h0 : UInt8) (s : St) : Prop where
  len : s.buf.length = cap
  x2 : s.x2 < cap - 1
  last : s.buf[cap - 1]? = some 0
  cnt : s.z = 0 → s.x2 = hist.length
  wrapped : s.z ≠ 0 → cap - 1 ≤ hist.length ∧ 1 ≤ s.x2
  exact1 : hist.length = cap - 1 → s.z = 1 ∧ s.x2 = 1
  plain : hist.length ≤ cap - 1 → ∀ i, i < hist.length → s.buf[i]? = hist[i]?
  fst : 0 < hist.length → s.buf[0]? = some h0
  zero : s.z = 0 → ∀ i, s.x2 ≤ i → i < cap → s.buf[i]? = some 0
  nz0 : s.z = 0 → ∀ i, i < s.x2 → s.buf[i]? ≠ some 0
  nz1 : s.z = 1 → ∀ i, s.x2 ≤ i → i < cap - 1 → s.buf[i]? ≠ some 0

theorem mix1_inv (cap : Nat) (hist : List UInt8) (h0 c : UInt8) (s : St) (hcap : 3 ≤ cap)
    (hc : c ≠ 0) (hfst : hist = [] → c = h0) (h : MixInv cap hist h0 s) :
    ∃ s', mix1 cap c s = .ok s' ∧ MixInv cap (hist ++ [c]) h0 s' := by
  obtain ⟨len, x2, last, cnt, wrapped, exact1, plain, fst, zero, nz0, nz1⟩ := h
  have hx : s.x2 < s.buf.length := by omega
  unfold mix1
  rw [rd_ok hx, ok_bind, wr_ok _ hx, ok_bind]
  have hzero : s.z = 0 → s.buf[s.x2] = 0 := by
    intro hz
    have := zero hz s.x2 (Nat.le_refl _) (by omega)
    simpa [List.getElem?_eq_getElem hx] using this
  have hnew : s.z = 0 → s.buf[s.x2] * 37 + c = c := by
    intro hz; rw [hzero hz]; simp
  generalize s.buf[s.x2] * 37 + c = v at *
  have hl : (hist ++ [c]).length = hist.length + 1 := by simp
  have hplain : hist.length + 1 ≤ cap - 1 → ∀ i, i < hist.length + 1 →
      (s.buf.set s.x2 v)[i]? = (hist ++ [c])[i]? := by
    intro h1 i hi
    have hz : s.z = 0 := by
      by_cases hz : s.z = 0
      · exact hz
      · have := wrapped hz; omega
    rw [hnew hz, cnt hz, List.getElem?_set]
    by_cases hi2 : hist.length = i
    · have := cnt hz
      rw [if_pos hi2, if_pos (by omega), List.getElem?_append_right (by omega)]
      simp [← hi2]
    · rw [if_neg hi2, plain (by omega) i (by omega), List.getElem?_append_left (by omega)]
  have hf0 : (s.buf.set s.x2 v)[0]? = some h0 := by
    by_cases hh : hist = []
    · subst hh
      have hz : s.z = 0 := by
        by_cases hz : s.z = 0
        · exact hz
        · have := wrapped hz; simp at this; omega
      have hx0 := cnt hz
      rw [hnew hz, hx0, ← hfst rfl, List.getElem?_set]
      simp only [List.length_nil, if_true]
      rw [if_pos (by omega)]
    · have hp : 0 < hist.length := List.length_pos_iff.mpr hh
      have hx0 : s.x2 ≠ 0 := by
        by_cases hz : s.z = 0
        · have := cnt hz; omega
        · have := wrapped hz; omega
      rw [List.getElem?_set, if_neg hx0]
      exact fst hp
  by_cases hw : s.x2 + 1 = cap - 1
  · rw [if_pos hw]
    refine ⟨_, rfl, ?_⟩
    constructor <;> dsimp only
    · simp [len]
    · omega
    · grind
    · simp
    · intro _
      by_cases hz : s.z = 0
      · have := cnt hz; omega
      · have := wrapped hz; omega
    · grind
    · intro h1; rw [hl] at h1 ⊢; exact hplain h1
    · intro _; exact hf0
    · simp
    · simp
    · grind
  · rw [if_neg hw]
    refine ⟨_, rfl, ?_⟩
    constructor <;> dsimp only
    · simp [len]
    · omega
    · grind
    · grind
    · grind
    · grind
    · intro h1; rw [hl] at h1 ⊢; exact hplain h1
    · intro _; exact hf0
    · grind
    · grind
    · grind

theorem mix_inv (cap : Nat) (h0 : UInt8) (hcap : 3 ≤ cap) : ∀ (cs hist : List UInt8) (s : St),
    0 ∉ cs → (hist = [] → ∀ c, cs.head? = some c → c = h0) → MixInv cap hist h0 s →
    ∃ s', mix cap cs s = .ok s' ∧ MixInv cap (hist ++ cs) h0 s'
  | [], hist, s, _, _, h => ⟨s, rfl, by simpa using h⟩
  | c :: cs, hist, s, hz, hf, h => by
    obtain ⟨s1, e1, h1⟩ := mix1_inv cap hist h0 c s hcap (by intro e; exact hz (by simp [e]))
      (fun hn => hf hn c rfl) h
    obtain ⟨s2, e2, h2⟩ := mix_inv cap h0 hcap cs (hist ++ [c]) s1
      (by intro e; exact hz (by simp [e])) (by simp) h1
    refine ⟨s2, ?_, ?_⟩
    · rw [mix, e1, ok_bind, e2]
    · simpa using h2

theorem init_inv (cap : Nat) (h0 : UInt8) (hcap : 3 ≤ cap) :
    MixInv cap [] h0 { buf := List.replicate cap 0, x2 := 0, z := 0 } := by
  have h : ∀ i, i < cap → (List.replicate cap (0 : UInt8))[i]? = some 0 := by
    intro i hi
    rw [List.getElem?_replicate, if_pos hi]
  constructor <;> dsimp only
  · simp
  · omega
  · exact h _ (by omega)
  · simp
  · simp
  · simp; omega
  · simp
  · simp
  · intro _ i _ hi; exact h i hi
  · simp
  · simp

/-! ## Normalising -/

theorem norm_ok (b : UInt8) : norm b ≠ 0 ∧ norm b ≠ 47 ∧ norm b ≠ 92 := by
  have h : ∀ n : Fin 256, norm (UInt8.ofNat n) ≠ 0 ∧ norm (UInt8.ofNat n) ≠ 47 ∧
      norm (UInt8.ofNat n) ≠ 92 := by decide +kernel
  have := h ⟨b.toNat, b.toNat_lt⟩
  simpa using this

theorem normLoop_ok : ∀ (n x : Nat) (buf : List UInt8), x + n ≤ buf.length →
    ∃ buf', normLoop n x buf = .ok buf' ∧ buf'.length = buf.length ∧
      ∀ i, buf'[i]? = if x ≤ i ∧ i < x + n then buf[i]?.map norm else buf[i]?
  | 0, x, buf, _ => ⟨buf, rfl, rfl, fun i => by rw [if_neg (by omega)]⟩
  | n + 1, x, buf, h => by
    have hx : x < buf.length := by omega
    obtain ⟨b', e, hl, hi⟩ := normLoop_ok n (x + 1) (buf.set x (norm buf[x])) (by simp; omega)
    refine ⟨b', by rw [normLoop, rd_ok hx, ok_bind, wr_ok _ hx, ok_bind, e], by simpa using hl, ?_⟩
    intro i
    rw [hi i, List.getElem?_set]
    by_cases hxi : x = i
    · subst hxi
      rw [if_neg (by omega), if_pos rfl, if_pos hx, if_pos (by omega)]
      simp [hx]
    · by_cases h2 : x + 1 ≤ i ∧ i < x + 1 + n
      · rw [if_pos h2, if_neg hxi, if_pos (by omega)]
      · rw [if_neg h2, if_neg hxi, if_neg (by omega)]

/-! ## Slashes -/

/-- What the last loop makes of one character. -/
def san (b : UInt8) : UInt8 := if b = 92 ∨ b = 47 then 95 else b

theorem slashLoop_ok (cap : Nat) : ∀ (w a rest : List UInt8) (fuel x : Nat), 0 ∉ w → x = a.length →
    w.length < fuel → a.length + w.length + 1 ≤ cap →
    slashLoop cap fuel x (a ++ (w ++ 0 :: rest)) = .ok (a ++ (w.map san ++ 0 :: rest))
  | [], a, rest, fuel + 1, x, _, hx, _, hc => by
    subst hx
    rw [slashLoop, if_pos (by omega), rd_ok (by simp), ok_bind, if_pos (by simp)]
    rfl
  | b :: w, a, rest, fuel + 1, x, hz, hx, hf, hc => by
    subst hx
    simp only [List.length_cons] at hf hc
    have hb : b ≠ 0 := by intro e; exact hz (by simp [e])
    rw [slashLoop, if_pos (by omega), rd_ok (by simp), ok_bind,
      if_neg (by simpa using hb)]
    have ih := slashLoop_ok cap w (a ++ [san b]) rest fuel (a.length + 1)
      (by intro e; exact hz (by simp [e])) (by simp) (by omega) (by simp; omega)
    have hg : (a ++ (b :: w ++ 0 :: rest))[a.length]'(by simp) = b := by simp
    rw [hg]
    by_cases hs : b = 92 ∨ b = 47
    · rw [if_pos hs, List.cons_append, wr_append, ok_bind]
      have : a ++ 95 :: (w ++ 0 :: rest) = (a ++ [san b]) ++ (w ++ 0 :: rest) := by
        simp [san, hs]
      rw [this]
      dsimp only
      rw [ih]
      simp
    · rw [if_neg hs, ok_bind]
      have : a ++ (b :: w ++ 0 :: rest) = (a ++ [san b]) ++ (w ++ 0 :: rest) := by
        simp [san, hs]
      rw [this]
      dsimp only
      rw [ih]
      simp

theorem cstr_ok : ∀ (w rest : List UInt8), 0 ∉ w → cstr (w ++ 0 :: rest) = .ok w
  | [], rest, _ => by simp [cstr]
  | b :: w, rest, h => by
    have hb : b ≠ 0 := by intro e; exact h (by simp [e])
    rw [List.cons_append, cstr, if_neg hb, cstr_ok w rest (by intro e; exact h (by simp [e]))]
    rfl

theorem san_ne (b : UInt8) : san b ≠ 47 ∧ san b ≠ 92 ∧ (b ≠ 0 → san b ≠ 0) := by
  unfold san
  by_cases h : b = 92 ∨ b = 47
  · rw [if_pos h]; exact ⟨by decide, by decide, fun _ => by decide⟩
  · rw [if_neg h]; exact ⟨fun e => h (.inr e), fun e => h (.inl e), id⟩

theorem san_alike (a b : UInt8) (ha : a ≠ 0) : san a = san b ↔ alike a b := by
  unfold san alike slashLike
  constructor
  · intro h
    by_cases h1 : a = 92 ∨ a = 47 <;> by_cases h2 : b = 92 ∨ b = 47
    all_goals simp only [h1, h2, if_true, if_false] at h
    all_goals grind
  · intro h
    rcases h with h | ⟨h1, h2⟩
    · rw [h]
    · rcases h1 with h1 | h1 | h1 <;> rcases h2 with h2 | h2 | h2 <;> subst h1 <;> subst h2 <;> rfl

theorem map_san_alike : ∀ (a b : List UInt8), a.map san = b.map san ↔ Alike a b
  | [], [] => by simp [Alike]
  | [], _ :: _ => by simp [Alike]
  | _ :: _, [] => by simp [Alike]
  | a :: as, b :: bs => by
    simp only [List.map_cons, List.cons.injEq, Alike, map_san_alike as bs]
    constructor
    · intro ⟨h1, h2⟩
      refine ⟨?_, h2⟩
      unfold san at h1
      unfold alike slashLike
      grind
    · intro ⟨h1, h2⟩
      refine ⟨?_, h2⟩
      unfold alike slashLike at h1
      unfold san
      grind

/-! ## The whole name -/

theorem split_at (l : List UInt8) (m : Nat) (b h0 : UInt8) (hm : 1 ≤ m) (h0m : l[0]? = some h0)
    (hb : l[m]? = some b) : ∃ w rest, l = [h0] ++ (w ++ b :: rest) ∧ w.length = m - 1 ∧
      ∀ i, i < m - 1 → w[i]? = l[i + 1]? := by
  cases l with
  | nil => simp at h0m
  | cons a l =>
    simp at h0m
    subst h0m
    obtain ⟨k, rfl⟩ : ∃ k, m = k + 1 := ⟨m - 1, by omega⟩
    simp only [List.getElem?_cons_succ] at hb
    obtain ⟨hk, hbk⟩ := List.getElem?_eq_some_iff.mp hb
    refine ⟨l.take k, l.drop (k + 1), ?_, ?_, ?_⟩
    · rw [← hbk, List.getElem_cons_drop]
      simp
    · simp; omega
    · intro i hi
      simp only [Nat.add_sub_cancel] at hi
      simp [hi]

theorem mangle_ok (cap al : Nat) (pre : List UInt8) (size : Nat) (name : List UInt8)
    (hcap : 3 ≤ cap) (hpre : ∃ p q, pre = 47 :: p :: q) (h0p : 0 ∉ pre) (h0n : 0 ∉ name) :
    let full := fullText pre (al % 4294967296) (size % 4294967296) name
    ∃ w rest, mangle cap al pre size name = .ok ([47] ++ (w ++ 0 :: rest)) ∧
      0 ∉ w ∧ 47 ∉ w ∧ 92 ∉ w ∧ w.length + 1 = min full.length (cap - 1) ∧
      (full.length ≤ cap - 1 → w = (full.drop 1).map san) := by
  intro full
  obtain ⟨p, q, hpre⟩ := hpre
  have hns : 0 ∉ [45] ++ numeral (al % 4294967296) ++ [45] ++ numeral (size % 4294967296) ++ [45] := by
    have z : ∀ n, (0 : UInt8) ∉ numeral n := fun n h => by have := numeral_digit n 0 h; simp at this
    simp [z]
  obtain ⟨s1, e1, i1⟩ := mix_inv cap 47 hcap pre [] _ h0p (by intro _ c hc; simp [hpre] at hc; exact hc.symm)
    (init_inv cap 47 hcap)
  obtain ⟨s2, e2, i2⟩ := mix_inv cap 47 hcap _ _ s1 hns (by simp [hpre]) i1
  obtain ⟨s3, e3, i3⟩ := mix_inv cap 47 hcap name _ s2 h0n (by simp [hpre]) i2
  have hfull : [] ++ pre ++ ([45] ++ numeral (al % 4294967296) ++ [45] ++
      numeral (size % 4294967296) ++ [45]) ++ name = full := by
    simp [full, fullText]
  rw [hfull] at i3
  have hlen2 : 2 ≤ full.length := by simp [full, fullText, hpre]
  have h0f : 0 ∉ full := by
    rw [← hfull]; simp only [List.nil_append, List.mem_append, not_or] at hns ⊢
    exact ⟨⟨h0p, hns⟩, h0n⟩
  obtain ⟨len, x2, last, cnt, wrapped, exact1, plain, fst, zero, nz0, nz1⟩ := i3
  have hnorm : ∃ buf, normalize cap s3 = .ok buf ∧ buf.length = cap ∧ buf[0]? = some 47 ∧
      buf[min full.length (cap - 1)]? = some 0 ∧
      (∀ i, i < min full.length (cap - 1) → buf[i]? ≠ some 0) ∧
      (full.length ≤ cap - 1 → ∀ i, i < full.length → buf[i]? = full[i]?) := by
    unfold normalize
    by_cases hz : s3.z = 0
    · rw [if_neg (by simp [hz])]
      have hc := cnt hz
      have : min full.length (cap - 1) = s3.x2 := by omega
      rw [this]
      exact ⟨_, rfl, len, fst (by omega), zero hz _ (Nat.le_refl _) (by omega), nz0 hz, plain⟩
    · rw [if_pos hz]
      have hw := wrapped hz
      have : min full.length (cap - 1) = cap - 1 := by omega
      rw [this]
      by_cases h1 : s3.z > 1
      · rw [if_pos h1]
        obtain ⟨b, eb, lb, ib⟩ := normLoop_ok (cap - 1 - 1) 1 s3.buf (by omega)
        refine ⟨b, eb, by omega, ?_, ?_, ?_, ?_⟩
        · rw [ib, if_neg (by omega)]; exact fst (by omega)
        · rw [ib, if_neg (by omega)]; exact last
        · intro i hi
          rw [ib]
          by_cases h0 : i = 0
          · subst h0
            rw [if_neg (by omega), fst (by omega)]; simp
          · rw [if_pos (by omega)]
            intro e
            obtain ⟨v, _, hv⟩ := Option.map_eq_some_iff.mp e
            exact (norm_ok v).1 hv
        · intro hle
          have := exact1 (by omega)
          omega
      · rw [if_neg h1]
        have hz1 : s3.z = 1 := by omega
        obtain ⟨b, eb, lb, ib⟩ := normLoop_ok (s3.x2 - 1) 1 s3.buf (by omega)
        refine ⟨b, eb, by omega, ?_, ?_, ?_, ?_⟩
        · rw [ib, if_neg (by omega)]; exact fst (by omega)
        · rw [ib, if_neg (by omega)]; exact last
        · intro i hi
          rw [ib]
          by_cases h0 : i = 0
          · subst h0
            rw [if_neg (by omega), fst (by omega)]; simp
          · by_cases hx : i < s3.x2
            · rw [if_pos (by omega)]
              intro e
              obtain ⟨v, _, hv⟩ := Option.map_eq_some_iff.mp e
              exact (norm_ok v).1 hv
            · rw [if_neg (by omega)]
              exact nz1 hz1 i (by omega) hi
        · intro hle i hi
          have := exact1 (by omega)
          rw [ib, if_neg (by omega)]
          exact plain hle i hi
  obtain ⟨buf, eb, lb, b0, bm, bnz, bpl⟩ := hnorm
  obtain ⟨w, rest, hbuf, hwl, hwi⟩ := split_at buf _ 0 47 (by omega) b0 bm
  have hw0 : 0 ∉ w := by
    intro h
    obtain ⟨i, hi, e⟩ := List.mem_iff_getElem.mp h
    have := hwi i (by omega)
    rw [List.getElem?_eq_getElem hi, e] at this
    exact bnz (i + 1) (by omega) this.symm
  refine ⟨w.map san, rest, ?_, ?_, ?_, ?_, ?_, ?_⟩
  · rw [mangle, e1, ok_bind, nums_ok, ok_bind, e2, ok_bind, e3, ok_bind, eb, ok_bind, hbuf]
    have hbl : buf.length = cap := lb
    rw [hbuf] at hbl
    simp only [List.length_append, List.length_cons, List.length_nil] at hbl
    exact slashLoop_ok cap w [47] rest (cap + 1) 1 hw0 rfl (by omega) (by simp; omega)
  · intro h
    obtain ⟨v, hv, e⟩ := List.mem_map.mp h
    exact (san_ne v).2.2 (fun h0 => hw0 (h0 ▸ hv)) e
  · intro h
    obtain ⟨v, hv, e⟩ := List.mem_map.mp h
    exact (san_ne v).1 e
  · intro h
    obtain ⟨v, hv, e⟩ := List.mem_map.mp h
    exact (san_ne v).2.1 e
  · simp; omega
  · intro hle
    congr 1
    apply List.ext_getElem?
    intro i
    by_cases hi : i < full.length - 1
    · rw [hwi i (by omega), bpl hle (i + 1) (by omega)]
      simp [Nat.add_comm]
    · rw [List.getElem?_eq_none (by omega), List.getElem?_eq_none (by simp; omega)]

theorem alignSize_ok (al n : Nat) (h : 0 < al) (hn : n + al ≤ 18446744073709551615) :
    alignSize al n = .ok (al * units al n) := by
  unfold alignSize units
  rw [if_neg (by omega)]
  have hd := Nat.div_add_mod n al
  have hlt := Nat.mod_lt n h
  by_cases hm : n % al = 0
  · rw [if_neg (by simpa using hm)]
    have : (n + al - 1) / al = n / al := by
      apply Nat.div_eq_of_lt_le
      · rw [Nat.mul_comm]; omega
      · rw [Nat.mul_comm, Nat.mul_add]; omega
    rw [this]
    congr 1
    omega
  · rw [if_pos hm]
    have : (n + al - 1) / al = n / al + 1 := by
      apply Nat.div_eq_of_lt_le
      · rw [Nat.mul_comm, Nat.mul_add]; omega
      · rw [Nat.mul_comm, Nat.mul_add, Nat.mul_add]; omega
    rw [this, Nat.mul_add]
    congr 1
    omega

/-- Splitting at the first dash. -/
theorem dash_split : ∀ (a b x y : List UInt8), 45 ∉ a → 45 ∉ b → a ++ 45 :: x = b ++ 45 :: y →
    a = b ∧ x = y
  | [], [], x, y, _, _, h => by simpa using h
  | [], b :: bs, x, y, _, hb, h => by
    simp at h; exact absurd h.1 (by intro e; exact hb (by simp [e]))
  | a :: as, [], x, y, ha, _, h => by
    simp at h; exact absurd h.1 (by intro e; exact ha (by simp [e]))
  | a :: as, b :: bs, x, y, ha, hb, h => by
    simp only [List.cons_append, List.cons.injEq] at h
    have := dash_split as bs x y (by intro e; exact ha (by simp [e]))
      (by intro e; exact hb (by simp [e])) h.2
    exact ⟨by rw [h.1, this.1], this.2⟩

theorem numeral_dash (n : Nat) : 45 ∉ numeral n := fun h => by
  have := numeral_digit n 45 h
  simp at this

theorem numeral_san (n : Nat) : (numeral n).map san = numeral n := by
  rw [List.map_congr_left (g := id), List.map_id]
  intro b hb
  have := numeral_digit n b hb
  unfold san
  rw [if_neg]
  · rfl
  · rintro (e | e) <;> subst e <;> simp at this

theorem pre_dash (k : Kind) : 45 ∉ (k.pre.drop 1).map san := by cases k <;> decide

theorem pre_inj (k l : Kind) (h : (k.pre.drop 1).map san = (l.pre.drop 1).map san) : k = l := by
  revert h; cases k <;> cases l <;> decide

theorem pre_shape (k : Kind) : (∃ p q, k.pre = 47 :: p :: q) ∧ 0 ∉ k.pre := by
  cases k <;> exact ⟨⟨_, _, rfl⟩, by decide⟩

theorem full_drop (k : Kind) (al total : Nat) (name : List UInt8) :
    ((fullText k.pre al total name).drop 1).map san =
      (k.pre.drop 1).map san ++ 45 :: (numeral al ++ 45 :: (numeral total ++ 45 :: name.map san)) := by
  obtain ⟨⟨p, q, h⟩, _⟩ := pre_shape k
  have h45 : san 45 = 45 := by decide
  simp [fullText, h, numeral_san, h45]

/-- A name that fits is not mangled, except for the slashes. -/
theorem shmName_short (cap al hdr : Nat) (k : Kind) (size : Nat) (name : List UInt8)
    (hcap : 3 ≤ cap) (hal : 0 < al) (h0 : 0 ∉ name) (hsz : size + hdr + al < 4294967296)
    (hfit : (fullText k.pre al (al * units al (size + hdr)) name).length < cap) :
    shmName cap al hdr k.pre size name =
      .ok (47 :: ((fullText k.pre al (al * units al (size + hdr)) name).drop 1).map san) := by
  have hu : al * units al (size + hdr) < 4294967296 := by
    have := Nat.div_mul_le_self (size + hdr + al - 1) al
    unfold units
    rw [Nat.mul_comm]
    omega
  obtain ⟨hp, hp0⟩ := pre_shape k
  obtain ⟨w, rest, e, h1, h2, h3, h4, h5⟩ :=
    mangle_ok cap al k.pre (al * units al (size + hdr)) name hcap hp hp0 h0
  rw [Nat.mod_eq_of_lt (by omega), Nat.mod_eq_of_lt hu] at h5
  have h6 := h5 (by omega)
  rw [shmName, Nat.mod_eq_of_lt (by omega), alignSize_ok al (size + hdr) hal (by omega), ok_bind, e,
    ok_bind, ← List.append_assoc, cstr_ok ([47] ++ w) rest (by simp [h1]), h6]
  rfl

end Verif.ShmName
