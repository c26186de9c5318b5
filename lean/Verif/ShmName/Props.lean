import Verif.ShmName.Lemmas

/-!
# C38: named objects are shared exactly by name

`shmName cap al hdr kind size name` is the name of the system-wide object that `InitUnixNamedMem`
opens; two calls reach the same object exactly when these names are equal.
-/

namespace Verif.ShmName
open Spec

/-- Whatever the kind, size and name, building the object name stays inside its buffers, and the
result is a name that `shm_open` accepts. -/
theorem accepted (cap al hdr : Nat) (k : Kind) (size : Nat) (name : List UInt8)
    (hcap : 3 ≤ cap) (hal : 0 < al) (h0 : 0 ∉ name) :
    ∃ s, shmName cap al hdr k.pre size name = .ok s ∧ Valid cap s := by
  obtain ⟨t, ht⟩ : ∃ t, alignSize al ((size + hdr) % 18446744073709551616) = .ok t := by
    unfold alignSize; rw [if_neg (by omega)]; exact ⟨_, rfl⟩
  obtain ⟨hp, hp0⟩ := pre_shape k
  obtain ⟨w, rest, e, h1, h2, h3, h4, h5⟩ := mangle_ok cap al k.pre t name hcap hp hp0 h0
  refine ⟨47 :: w, ?_, w, rfl, ?_, h2, h1, ?_⟩
  · rw [shmName, ht, ok_bind, e, ok_bind, ← List.append_assoc]
    exact cstr_ok ([47] ++ w) rest (by simp [h1])
  · intro hw
    subst hw
    obtain ⟨p, q, hp⟩ := hp
    simp [fullText, hp] at h4
    omega
  · simp; omega

example : (3 ≤ 255) ∧ (0 < 4) ∧ (0 : UInt8) ∉ [100, 98] := by decide

/-- When the texts fit, two opens reach the same object exactly when the kinds agree, the sizes need
the same number of allocation units, and the names are equal up to exchanging `/`, `\` and `_`.

The full claim (for all names and sizes, equality of names and sizes) is false: see
`slash_collides`, `size_collides`, `wide_collides` and `long_collides`. -/
theorem same_object_partial (cap al hdr : Nat) (k l : Kind) (m n : Nat) (a b : List UInt8)
    (hcap : 3 ≤ cap) (hal : 0 < al) (ha : 0 ∉ a) (hb : 0 ∉ b)
    (hm : m + hdr + al < 4294967296) (hn : n + hdr + al < 4294967296)
    (hfa : (fullText k.pre al (al * units al (m + hdr)) a).length < cap)
    (hfb : (fullText l.pre al (al * units al (n + hdr)) b).length < cap) :
    shmName cap al hdr k.pre m a = shmName cap al hdr l.pre n b ↔
      k = l ∧ units al (m + hdr) = units al (n + hdr) ∧ Alike a b := by
  rw [shmName_short cap al hdr k m a hcap hal ha hm hfa,
    shmName_short cap al hdr l n b hcap hal hb hn hfb, full_drop, full_drop, ← map_san_alike]
  constructor
  · intro h
    simp only [Except.ok.injEq, List.cons.injEq, true_and] at h
    obtain ⟨h1, h2⟩ := dash_split _ _ _ _ (pre_dash k) (pre_dash l) h
    obtain ⟨_, h3⟩ := dash_split _ _ _ _ (numeral_dash _) (numeral_dash _) h2
    obtain ⟨h4, h5⟩ := dash_split _ _ _ _ (numeral_dash _) (numeral_dash _) h3
    exact ⟨pre_inj k l h1, Nat.eq_of_mul_eq_mul_left hal (numeral_inj h4), h5⟩
  · rintro ⟨rfl, h2, h3⟩
    rw [h2, h3]

/-- Names without `/` and `\` that are alike are equal. -/
theorem alike_eq : ∀ (a b : List UInt8), 47 ∉ a → 92 ∉ a → 47 ∉ b → 92 ∉ b → Alike a b → a = b
  | [], [], _, _, _, _, _ => rfl
  | [], _ :: _, _, _, _, _, h => absurd h (by simp [Alike])
  | _ :: _, [], _, _, _, _, h => absurd h (by simp [Alike])
  | x :: a, y :: b, h1, h2, h3, h4, h => by
    simp only [List.mem_cons, not_or] at h1 h2 h3 h4
    obtain ⟨ha, hs⟩ := h
    have ih := alike_eq a b h1.2 h2.2 h3.2 h4.2 hs
    rw [ih]
    rcases ha with e | ⟨e1, e2⟩
    · rw [e]
    · rcases e1 with e1 | e1 | e1
      · exact absurd e1.symm h1.1
      · exact absurd e1.symm h2.1
      · rcases e2 with e2 | e2 | e2
        · exact absurd e2.symm h3.1
        · exact absurd e2.symm h4.1
        · rw [e1, e2]

theorem alike_refl : ∀ (a : List UInt8), Alike a a
  | [] => trivial
  | _ :: a => ⟨.inl rfl, alike_refl a⟩

/-- Names without slashes that fit: the object is determined exactly by kind, number of allocation
units and name. -/
theorem by_name_partial (cap al hdr : Nat) (k l : Kind) (m n : Nat) (a b : List UInt8)
    (hcap : 3 ≤ cap) (hal : 0 < al) (ha : 0 ∉ a) (hb : 0 ∉ b)
    (ha1 : 47 ∉ a) (ha2 : 92 ∉ a) (hb1 : 47 ∉ b) (hb2 : 92 ∉ b)
    (hm : m + hdr + al < 4294967296) (hn : n + hdr + al < 4294967296)
    (hfa : (fullText k.pre al (al * units al (m + hdr)) a).length < cap)
    (hfb : (fullText l.pre al (al * units al (n + hdr)) b).length < cap) :
    shmName cap al hdr k.pre m a = shmName cap al hdr l.pre n b ↔
      k = l ∧ units al (m + hdr) = units al (n + hdr) ∧ a = b := by
  rw [same_object_partial cap al hdr k l m n a b hcap hal ha hb hm hn hfa hfb]
  constructor
  · rintro ⟨h1, h2, h3⟩
    exact ⟨h1, h2, alike_eq a b ha1 ha2 hb1 hb2 h3⟩
  · rintro ⟨h1, h2, rfl⟩
    exact ⟨h1, h2, alike_refl a⟩

/- Hypotheses met: 100 bytes of shared memory named "db" on a system with 4-byte units. -/
example : (3 ≤ 255) ∧ 0 < 4 ∧ (0 : UInt8) ∉ [100, 98] ∧ (47 : UInt8) ∉ [100, 98] ∧
    (92 : UInt8) ∉ [100, 98] ∧ 100 + 48 + 4 < 4294967296 ∧
    (fullText Kind.sharedMem.pre 4 (4 * units 4 (100 + 48)) [100, 98]).length < 255 := by
  decide +kernel

/-- Any name of at most 216 characters fits on systems with `SHM_NAME_MAX` 255. -/
theorem fits_216 (al hdr : Nat) (k : Kind) (m : Nat) (a : List UInt8) (hal : 0 < al)
    (hm : m + hdr + al < 4294967296) (hlen : a.length ≤ 216) :
    (fullText k.pre al (al * units al (m + hdr)) a).length < 255 := by
  have h1 := numeral_length al (by omega)
  have h2 : al * units al (m + hdr) < 4294967296 := by
    have := Nat.div_mul_le_self (m + hdr + al - 1) al
    unfold units
    rw [Nat.mul_comm]
    omega
  have h3 := numeral_length _ h2
  have h4 : k.pre.length ≤ 15 := by cases k <;> decide
  simp only [fullText, List.length_append, List.length_cons, List.length_nil]
  omega

example : (0 < 4) ∧ 100 + 48 + 4 < 4294967296 ∧ [100, 98].length ≤ 216 := by decide

/-! ## Where the claim fails -/

/-- "a/b" and "a_b" are the same event. -/
theorem slash_collides :
    shmName 255 4 48 Kind.event.pre 100 [97, 47, 98] =
      shmName 255 4 48 Kind.event.pre 100 [97, 95, 98] := by decide +kernel

/-- Shared memory of 5 and of 8 bytes with the same name is the same object. -/
theorem size_collides :
    shmName 255 4 48 Kind.sharedMem.pre 5 [97] = shmName 255 4 48 Kind.sharedMem.pre 8 [97] := by
  decide +kernel

/-- Sizes that differ by 4 GiB give the same object. -/
theorem wide_collides :
    shmName 255 4 48 Kind.sharedMem.pre 8 [97] =
      shmName 255 4 48 Kind.sharedMem.pre (8 + 4294967296) [97] := by decide +kernel

/-- Two names of 234 characters that differ in the last one give the same object. -/
theorem long_collides :
    shmName 255 4 48 Kind.sharedMem.pre 8 (List.replicate 233 97 ++ [97]) =
      shmName 255 4 48 Kind.sharedMem.pre 8 (List.replicate 233 97 ++ [33]) := by decide +kernel

end Verif.ShmName
