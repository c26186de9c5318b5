import Verif.HashFn.Model
import Verif.HashFn.Spec

/-!
# C57, C66: key hashing
-/

namespace Verif.HashFn

theorem leNum_eq : ∀ bs, leNum bs = Spec.littleEndian bs
  | [] => rfl
  | b :: bs => by rw [leNum, Spec.littleEndian, leNum_eq bs]

theorem djbStep_eq (r y : UInt32) : djbStep r y = Spec.bernstein r y := by
  unfold djbStep Spec.bernstein
  congr 1
  apply UInt32.toNat_inj.1
  rw [UInt32.toNat_add, UInt32.toNat_shiftLeft, UInt32.toNat_mul]
  rw [show (5 : UInt32).toNat = 5 from rfl, show (33 : UInt32).toNat = 33 from rfl, Nat.shiftLeft_eq, show 2 ^ (5 % 32) = 32 from rfl]
  omega

/-- Reading a word inside the key. -/
theorem load_ok (le : Bool) (pre w rest : List UInt8) (n : Nat) (h : w.length = n) :
    loadWord le (pre ++ (w ++ rest)) pre.length n = .ok (Spec.littleEndian (if le then w else w.reverse)) := by
  unfold loadWord
  rw [if_pos (by simp; omega)]
  simp only [List.drop_left, ← h, List.take_left, leNum_eq]

theorem cut (n : Nat) (pre m post : List UInt8) : pre ++ (m ++ post) = pre ++ m.take n ++ (m.drop n ++ post) := by
  rw [List.append_assoc, ← List.append_assoc (m.take n), List.take_append_drop]

theorem djbTail_ok (pre post : List UInt8) : ∀ (m : List UInt8) (n : Nat) (r : UInt32), n ≤ m.length →
    djbTail (pre ++ (m ++ post)) pre.length n r = .ok ((m.take n).reverse.foldl (fun r b => Spec.bernstein r b.toUInt32) r)
  | m, 0, r, _ => by simp [djbTail]
  | m, n + 1, r, h => by
    have hr : rd (pre ++ (m ++ post)) (pre.length + n) = .ok m[n] := by
      unfold rd
      rw [List.getElem?_append_right (by omega), Nat.add_sub_cancel_left, List.getElem?_append_left (by omega),
        List.getElem?_eq_getElem (by omega)]
    rw [djbTail, hr, ok_bind, djbTail_ok pre post m n _ (by omega), djbStep_eq, List.take_add_one, List.getElem?_eq_getElem (by omega),
      List.reverse_append]
    rfl

theorem djbWords_ok (le : Bool) (post : List UInt8) : ∀ (k : Nat) (pre m : List UInt8) (r : UInt32), m.length < k →
    ∃ r', djbWords le (pre ++ (m ++ post)) k pre.length (pre.length + m.length - m.length % 4) r =
        .ok (pre.length + (m.length - m.length % 4), r') ∧
      Spec.djbHash le r m = Spec.djbHash le r' (m.drop (m.length - m.length % 4))
  | 0, pre, m, r, h => absurd h (Nat.not_lt_zero _)
  | k + 1, pre, m, r, h => by
    by_cases hm : m.length < 4
    · have e : m.length - m.length % 4 = 0 := by omega
      refine ⟨r, ?_, by rw [e]; rfl⟩
      rw [djbWords, if_neg (by omega), e]
      rfl
    · have hl4 : (m.take 4).length = 4 := by simp; omega
      have hld : (m.drop 4).length = m.length - 4 := by simp
      have hload : loadWord le (pre ++ (m ++ post)) pre.length 4 =
          .ok (Spec.littleEndian (if le then m.take 4 else (m.take 4).reverse)) := by
        rw [cut 4, List.append_assoc]
        exact load_ok le pre (m.take 4) (m.drop 4 ++ post) 4 hl4
      rw [djbWords, if_pos (by omega), hload, ok_bind, djbStep_eq]
      obtain ⟨r', h1, h2⟩ := djbWords_ok le post k (pre ++ m.take 4) (m.drop 4)
        (Spec.bernstein r (UInt32.ofNat (Spec.littleEndian (if le then m.take 4 else (m.take 4).reverse)))) (by omega)
      rw [← cut] at h1
      refine ⟨r', ?_, ?_⟩
      · have e2 : (pre ++ m.take 4).length = pre.length + 4 := by rw [List.length_append, hl4]
        rw [e2, hld] at h1
        rw [show pre.length + m.length - m.length % 4 = pre.length + 4 + (m.length - 4) - (m.length - 4) % 4 by omega, h1]
        congr 2
        omega
      · rw [Spec.djbHash, dif_neg hm, h2, hld, List.drop_drop]
        congr 2
        omega

theorem bytes_ok (le : Bool) (pre m post : List UInt8) (r : UInt32) :
    (do
      let (p, r) ← djbWords le (pre ++ (m ++ post)) (m.length + 1) pre.length (pre.length + m.length - m.length % 4) r
      djbTail (pre ++ (m ++ post)) p (m.length % 4) r : CRes UInt32) = .ok (Spec.djbHash le r m) := by
  obtain ⟨r', h1, h2⟩ := djbWords_ok le post (m.length + 1) pre m r (by omega)
  rw [h1, ok_bind]
  dsimp only
  have hl : (m.drop (m.length - m.length % 4)).length = m.length % 4 := by
    have := Nat.mod_le m.length 4
    rw [List.length_drop]; omega
  have e2 : pre.length + (m.length - m.length % 4) = (pre ++ m.take (m.length - m.length % 4)).length := by
    rw [List.length_append, List.length_take, Nat.min_eq_left (Nat.sub_le _ _)]
  rw [cut (m.length - m.length % 4), e2, djbTail_ok _ _ _ _ _ (by omega), h2, Spec.djbHash,
    dif_pos (by rw [hl]; omega), List.take_of_length_le (by omega)]

theorem sipRound_eq (s : Sip) : ((sipRound s).v0, (sipRound s).v1, (sipRound s).v2, (sipRound s).v3) = Spec.round (s.v0, s.v1, s.v2, s.v3) := rfl

/-- The words as a tuple. -/
def tup (s : Sip) : Spec.State := (s.v0, s.v1, s.v2, s.v3)

theorem sipRounds_eq : ∀ (n : Nat) (s : Sip), tup (sipRounds n s) = Spec.rounds n (tup s)
  | 0, s => rfl
  | n + 1, s => by
    rw [sipRounds, sipRounds_eq n]
    show Spec.rounds n (Spec.round (tup s)) = Spec.rounds (n + 1) (tup s)
    unfold Spec.rounds
    generalize tup s = t
    induction n with
    | zero => rfl
    | succ n ih => rw [Nat.repeat, ih]; rfl

/-- Absorbing a word. -/
def absorb (c : Nat) (s : Sip) (y : UInt64) : Sip :=
  let s := sipRounds c { s with v3 := s.v3 ^^^ y }
  { s with v0 := s.v0 ^^^ y }

theorem absorb_eq (c : Nat) (s : Sip) (y : UInt64) : tup (absorb c s y) = Spec.compress c (tup s) y := by
  have h := sipRounds_eq c { s with v3 := s.v3 ^^^ y }
  unfold absorb Spec.compress
  rw [show ((tup s).1, (tup s).2.1, (tup s).2.2.1, (tup s).2.2.2 ^^^ y) = tup { s with v3 := s.v3 ^^^ y } from rfl, ← h]
  rfl

theorem le_append : ∀ (a b : List UInt8), Spec.littleEndian (a ++ b) = Spec.littleEndian a + 256 ^ a.length * Spec.littleEndian b
  | [], b => by simp [Spec.littleEndian]
  | x :: a, b => by
    rw [List.cons_append, Spec.littleEndian, Spec.littleEndian, le_append a b, List.length_cons, Nat.pow_succ, Nat.mul_add, Nat.add_assoc,
      ← Nat.mul_assoc, Nat.mul_comm 256 (256 ^ a.length)]

theorem le_zeros : ∀ n, Spec.littleEndian (List.replicate n 0) = 0
  | 0 => rfl
  | n + 1 => by rw [List.replicate_succ, Spec.littleEndian, le_zeros n]; rfl

theorem or_step (n H b : Nat) (hb : b < 256) : 256 ^ (n + 1) * H ||| b * 2 ^ (8 * n) = 256 ^ n * (256 * H + b) := by
  have e : 256 ^ n = 2 ^ (8 * n) := by rw [Nat.pow_mul]
  have h1 : 256 * H + b = 256 * H ||| b := Nat.two_pow_add_eq_or_of_lt (i := 8) hb H
  rw [h1, e, Nat.mul_comm (2 ^ (8 * n)), ← Nat.shiftLeft_eq (256 * H ||| b), Nat.shiftLeft_or_distrib, Nat.shiftLeft_eq, Nat.shiftLeft_eq,
    Nat.pow_succ, e]
  congr 1
  rw [Nat.mul_comm (256 * H), ← Nat.mul_assoc]

theorem sipTail_ok (pre post : List UInt8) : ∀ (m : List UInt8) (n : Nat) (r : UInt64) (H : Nat), n ≤ m.length → n ≤ 7 →
    r.toNat = 256 ^ n * H →
    ∃ r', sipTail (pre ++ (m ++ post)) pre.length n r = .ok r' ∧ r'.toNat = Spec.littleEndian (m.take n) + 256 ^ n * H
  | m, 0, r, H, _, _, hr => ⟨r, rfl, by rw [hr]; simp [Spec.littleEndian]⟩
  | m, n + 1, r, H, h, h7, hr => by
    have hrd : rd (pre ++ (m ++ post)) (pre.length + n) = .ok m[n] := by
      unfold rd
      rw [List.getElem?_append_right (by omega), Nat.add_sub_cancel_left, List.getElem?_append_left (by omega),
        List.getElem?_eq_getElem (by omega)]
    have hb : m[n].toNat < 256 := m[n].toNat_lt
    have hor : (r ||| (m[n].toUInt64 <<< UInt64.ofNat (8 * n))).toNat = 256 ^ n * (256 * H + m[n].toNat) := by
      rw [UInt64.toNat_or, hr, UInt64.toNat_shiftLeft, UInt64.toNat_ofNat', Nat.mod_eq_of_lt (show 8 * n < 2 ^ 64 by omega), UInt8.toNat_toUInt64,
        Nat.mod_eq_of_lt (show 8 * n < 64 by omega), Nat.shiftLeft_eq, Nat.mod_eq_of_lt, or_step n H _ hb]
      calc m[n].toNat * 2 ^ (8 * n) < 256 * 2 ^ (8 * n) := Nat.mul_lt_mul_of_pos_right hb (Nat.two_pow_pos _)
        _ = 2 ^ (8 + 8 * n) := by rw [Nat.pow_add]
        _ ≤ 2 ^ 64 := Nat.pow_le_pow_right (by omega) (by omega)
    obtain ⟨r', g1, g2⟩ := sipTail_ok pre post m n _ (256 * H + m[n].toNat) (by omega) (by omega) hor
    refine ⟨r', ?_, ?_⟩
    · rw [sipTail, hrd, ok_bind, g1]
    · rw [g2, List.take_add_one, List.getElem?_eq_getElem (by omega), le_append, List.length_take, Nat.min_eq_left (by omega)]
      simp only [Option.toList, Spec.littleEndian, Nat.pow_succ, Nat.mul_add, Nat.mul_zero, Nat.add_zero]
      rw [← Nat.mul_assoc]
      omega

theorem sipWords_ok (le : Bool) (c : Nat) (post : List UInt8) : ∀ (k : Nat) (pre m : List UInt8) (s : Sip) (len : Nat), m.length < k →
    ∃ s' ws, sipWords le (pre ++ (m ++ post)) c k pre.length (pre.length + m.length - m.length % 8) s =
        .ok (pre.length + (m.length - m.length % 8), s') ∧ tup s' = ws.foldl (Spec.compress c) (tup s) ∧
      Spec.sipWords le m len = ws ++ Spec.sipWords le (m.drop (m.length - m.length % 8)) len
  | 0, pre, m, s, _, h => absurd h (Nat.not_lt_zero _)
  | k + 1, pre, m, s, len, h => by
    by_cases hm : m.length < 8
    · have e : m.length - m.length % 8 = 0 := by omega
      refine ⟨s, [], ?_, rfl, by rw [e]; rfl⟩
      rw [sipWords, if_neg (by omega), e]
      rfl
    · have hl8 : (m.take 8).length = 8 := by simp; omega
      have hld : (m.drop 8).length = m.length - 8 := by simp
      have hload : loadWord le (pre ++ (m ++ post)) pre.length 8 =
          .ok (Spec.littleEndian (if le then m.take 8 else (m.take 8).reverse)) := by
        rw [cut 8, List.append_assoc]
        exact load_ok le pre (m.take 8) (m.drop 8 ++ post) 8 hl8
      obtain ⟨s', ws, h1, h2, h3⟩ := sipWords_ok le c post k (pre ++ m.take 8) (m.drop 8)
        (absorb c s (UInt64.ofNat (Spec.littleEndian (if le then m.take 8 else (m.take 8).reverse)))) len (by omega)
      refine ⟨s', UInt64.ofNat (Spec.littleEndian (if le then m.take 8 else (m.take 8).reverse)) :: ws, ?_, ?_, ?_⟩
      · rw [sipWords, if_pos (by omega), hload, ok_bind]
        rw [← cut] at h1
        have e2 : (pre ++ m.take 8).length = pre.length + 8 := by rw [List.length_append, hl8]
        rw [e2, hld] at h1
        dsimp only
        unfold absorb at h1
        dsimp only at h1
        rw [show pre.length + m.length - m.length % 8 = pre.length + 8 + (m.length - 8) - (m.length - 8) % 8 by omega, h1]
        congr 2
        omega
      · rw [h2, absorb_eq]; rfl
      · rw [Spec.sipWords, dif_neg hm, h3, hld, List.drop_drop]
        rw [show 8 + (m.length - 8 - (m.length - 8) % 8) = m.length - m.length % 8 by omega]
        rfl

/-- The last word. -/
theorem lastWord (m : List UInt8) (len : Nat) (hm : m.length < 8) :
    Spec.littleEndian (m ++ List.replicate (7 - m.length) 0 ++ [UInt8.ofNat len]) =
      Spec.littleEndian (m.take m.length) + 256 ^ m.length * (256 ^ (7 - m.length) * (len % 256)) := by
  rw [List.append_assoc, le_append, le_append, le_zeros, List.length_replicate, List.take_length]
  simp [Spec.littleEndian]

/-! ## C57, C66 -/

/-- `GetSipHashKey` reads only the key, has no undefined behaviour, and its result is SipHash-c-d of the key, wherever
the key is and whatever surrounds it (`le`: with little-endian words, as published). -/
theorem sip_is_siphash (le : Bool) (pre key post : List UInt8) (k0 k1 : UInt64) (c d : Nat) :
    sip le (pre ++ (key ++ post)) pre.length key.length k0 k1 c d = .ok (Spec.sipHash le c d k0 k1 key) := by
  unfold sip
  dsimp only
  obtain ⟨s', ws, h1, h2, h3⟩ := sipWords_ok le c post (key.length + 1) pre key
    ⟨0x736f6d6570736575 ^^^ k0, 0x646f72616e646f6d ^^^ k1, 0x6c7967656e657261 ^^^ k0, 0x7465646279746573 ^^^ k1⟩ key.length (by omega)
  rw [h1, ok_bind]
  dsimp only
  have hl : (key.drop (key.length - key.length % 8)).length = key.length % 8 := by
    have := Nat.mod_le key.length 8
    rw [List.length_drop]; omega
  have e2 : pre.length + (key.length - key.length % 8) = (pre ++ key.take (key.length - key.length % 8)).length := by
    rw [List.length_append, List.length_take, Nat.min_eq_left (Nat.sub_le _ _)]
  have hstart : (UInt64.ofNat key.length <<< 56).toNat = 256 ^ (key.length % 8) * (256 ^ (7 - key.length % 8) * (key.length % 256)) := by
    rw [UInt64.toNat_shiftLeft, UInt64.toNat_ofNat', show (56 : UInt64).toNat % 64 = 56 from rfl, Nat.shiftLeft_eq, ← Nat.mul_assoc, ← Nat.pow_add,
      show key.length % 8 + (7 - key.length % 8) = 7 by omega]
    omega
  obtain ⟨r', g1, g2⟩ := sipTail_ok (pre ++ key.take (key.length - key.length % 8)) post (key.drop (key.length - key.length % 8))
    (key.length % 8) _ _ (by omega) (by omega) hstart
  rw [e2, cut (key.length - key.length % 8), g1, ok_bind]
  have hr : r' = UInt64.ofNat (Spec.littleEndian (key.drop (key.length - key.length % 8) ++
      List.replicate (7 - (key.drop (key.length - key.length % 8)).length) 0 ++ [UInt8.ofNat key.length])) := by
    rw [lastWord _ _ (by omega), hl, ← g2, UInt64.ofNat_toNat]
  have hs : tup ⟨0x736f6d6570736575 ^^^ k0, 0x646f72616e646f6d ^^^ k1, 0x6c7967656e657261 ^^^ k0, 0x7465646279746573 ^^^ k1⟩ =
      (k0 ^^^ 0x736f6d6570736575, k1 ^^^ 0x646f72616e646f6d, k0 ^^^ 0x6c7967656e657261, k1 ^^^ 0x7465646279746573) := by
    unfold tup
    simp only [UInt64.xor_comm]
  rw [hs] at h2
  have hfold : (Spec.sipWords le key key.length).foldl (Spec.compress c)
      (k0 ^^^ 0x736f6d6570736575, k1 ^^^ 0x646f72616e646f6d, k0 ^^^ 0x6c7967656e657261, k1 ^^^ 0x7465646279746573) = tup (absorb c s' r') := by
    rw [h3, Spec.sipWords, dif_pos (by omega), ← hr, List.foldl_append, ← h2, List.foldl_cons, List.foldl_nil, ← absorb_eq]
  unfold Spec.sipHash
  dsimp only
  rw [hfold]
  have hd := sipRounds_eq d { absorb c s' r' with v2 := (absorb c s' r').v2 ^^^ 0xff }
  rw [show ((tup (absorb c s' r')).1, (tup (absorb c s' r')).2.1, (tup (absorb c s' r')).2.2.1 ^^^ 0xff, (tup (absorb c s' r')).2.2.2) =
    tup { absorb c s' r' with v2 := (absorb c s' r').v2 ^^^ 0xff } from rfl, ← hd]
  rfl

/-- `GetDJBX33XHashKey` reads only the key, has no undefined behaviour, and its result depends on nothing else but
the initial value (and the byte order). -/
theorem djb_is_djb (le : Bool) (pre key post : List UInt8) (init : UInt64) :
    djb le (pre ++ (key ++ post)) pre.length key.length init = .ok (Spec.djbHash le init.toUInt32 key).toUInt64 := by
  have h := bytes_ok le pre key post init.toUInt32
  unfold djb
  obtain ⟨r', h1, h2⟩ := djbWords_ok le post (key.length + 1) pre key init.toUInt32 (by omega)
  dsimp only
  rw [h1, ok_bind] at h ⊢
  dsimp only at h ⊢
  rw [h, ok_bind]

/-- `CacheUtil::GetHashKey(Str, Size)` likewise. -/
theorem cacheBytes_is_djb (le : Bool) (pre key post : List UInt8) :
    cacheBytes le (pre ++ (key ++ post)) pre.length key.length = .ok (Spec.djbHash le 5381 key).toUInt64 := by
  have h := bytes_ok le pre key post 5381
  unfold cacheBytes
  obtain ⟨r', h1, h2⟩ := djbWords_ok le post (key.length + 1) pre key 5381 (by omega)
  dsimp only
  rw [h1, ok_bind] at h ⊢
  dsimp only at h ⊢
  rw [h, ok_bind]

theorem charToSize_eq (sgn : Bool) (b : UInt8) :
    charToSize sgn b = if sgn ∧ 128 ≤ b.toNat then UInt64.ofNat (0xFFFFFFFFFFFFFF00 + b.toNat) else UInt64.ofNat b.toNat := by
  have hb : b.toNat < 256 := b.toNat_lt
  unfold charToSize
  split
  · apply UInt64.toNat_inj.1
    rw [UInt64.toNat_add, UInt8.toNat_toUInt64, UInt64.toNat_ofNat', show (0xFFFFFFFFFFFFFF00 : UInt64).toNat = 0xFFFFFFFFFFFFFF00 from rfl]
    omega
  · apply UInt64.toNat_inj.1
    rw [UInt8.toNat_toUInt64, UInt64.toNat_ofNat']
    omega

theorem charToSize_zero (sgn : Bool) (c : UInt8) : charToSize sgn c = 0 ↔ c = 0 := by
  have hb : c.toNat < 256 := c.toNat_lt
  rw [charToSize_eq, ← UInt64.toNat_inj, ← UInt8.toNat_inj]
  show _ = 0 ↔ _ = 0
  split
  · rw [UInt64.toNat_ofNat']; omega
  · rw [UInt64.toNat_ofNat']; omega

theorem times33 (r : UInt64) : (r <<< 5) + r = r * 33 := by
  apply UInt64.toNat_inj.1
  rw [UInt64.toNat_add, UInt64.toNat_shiftLeft, UInt64.toNat_mul]
  rw [show (5 : UInt64).toNat = 5 from rfl, show (33 : UInt64).toNat = 33 from rfl, Nat.shiftLeft_eq, show 2 ^ (5 % 64) = 32 from rfl]
  omega

theorem cacheStrLoop_ok (sgn : Bool) (post : List UInt8) : ∀ (key pre : List UInt8) (k : Nat) (r : UInt64), 0 ∉ key → key.length < k →
    cacheStrLoop sgn (pre ++ (key ++ 0 :: post)) k pre.length r =
      .ok (key.foldl (fun r b => (r * 33) ^^^ (if sgn ∧ 128 ≤ b.toNat then UInt64.ofNat (0xFFFFFFFFFFFFFF00 + b.toNat) else UInt64.ofNat b.toNat)) r)
  | [], pre, 0, r, _, h => absurd h (Nat.not_lt_zero _)
  | c :: key, pre, 0, r, _, h => absurd h (Nat.not_lt_zero _)
  | [], pre, k + 1, r, _, _ => by
    rw [cacheStrLoop, List.nil_append, show rd (pre ++ 0 :: post) pre.length = .ok 0 by simp [rd], ok_bind,
      if_neg (by rw [ne_eq, charToSize_zero]; simp)]
    rfl
  | c :: key, pre, k + 1, r, h0, hk => by
    have ih := cacheStrLoop_ok sgn post key (pre ++ [c]) k (((r <<< 5) + r) ^^^ charToSize sgn c)
      (fun h => h0 (List.mem_cons_of_mem _ h)) (by simp at hk; omega)
    rw [show pre ++ [c] ++ (key ++ 0 :: post) = pre ++ (c :: key ++ 0 :: post) by simp,
      show (pre ++ [c]).length = pre.length + 1 by simp] at ih
    rw [cacheStrLoop, show rd (pre ++ (c :: key ++ 0 :: post)) pre.length = .ok c by simp [rd], ok_bind,
      if_pos (by rw [ne_eq, charToSize_zero]; rintro rfl; exact h0 List.mem_cons_self), ih, List.foldl_cons, times33, charToSize_eq]

/-- `CacheUtil::GetHashKey(Str)` reads only the string and its terminator, and depends only on the string (and on the sign
of `char`). -/
theorem cacheStr_is_djb (sgn : Bool) (pre key post : List UInt8) (h : 0 ∉ key) :
    cacheStr sgn (pre ++ (key ++ 0 :: post)) pre.length = .ok (Spec.djbText sgn key) := by
  unfold cacheStr
  exact cacheStrLoop_ok sgn post key pre _ _ h (by simp; omega)

/-- The hash of the ordered hashes depends only on the key, and reads nothing else: the same for the key alone. -/
theorem hashKey_only (le useSip : Bool) (k0 k1 : UInt64) (pre key post : List UInt8) :
    ∃ h, hashKey le useSip k0 k1 key 0 key.length = .ok h ∧ hashKey le useSip k0 k1 (pre ++ (key ++ post)) pre.length key.length = .ok h := by
  unfold hashKey
  cases useSip with
  | true =>
    refine ⟨Spec.sipHash le 2 4 k0 k1 key, ?_, sip_is_siphash ..⟩
    have := sip_is_siphash le [] key [] k0 k1 2 4
    simpa using this
  | false =>
    refine ⟨_, ?_, djb_is_djb ..⟩
    have := djb_is_djb le [] key [] k0
    simpa using this

/-- A key of 13 bytes at an odd place. -/
example : (sip true ([1, 2, 3] ++ ([10, 11, 12, 13, 14, 15, 16, 17, 18, 19, 20, 21, 22] ++ [99])) 3 13 5 6 2 4).isOk = true ∧
    sip true [10, 11, 12, 13, 14, 15, 16, 17, 18, 19, 20, 21] 0 13 5 6 2 4 = .error .oobRead := by decide +kernel

end Verif.HashFn
