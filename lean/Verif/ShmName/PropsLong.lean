import Verif.ShmName.Props

/-!
# C38: long names

Names that do not fit are mixed into the buffer, so different names can collide (`long_collides`).  What still holds for every
length: changing one character in its low six bits gives another object.
-/

namespace Verif.ShmName
open Spec

theorem mix_append (cap : Nat) : ∀ (a b : List UInt8) (s : St),
    mix cap (a ++ b) s = (mix cap a s >>= fun s => mix cap b s)
  | [], _, _ => rfl
  | c :: a, b, s => by
    rw [List.cons_append, mix, mix]
    cases h : mix1 cap c s with
    | error e => rfl
    | ok s1 => rw [ok_bind, ok_bind, mix_append cap a b s1]

/-- The start of the buffer. -/
def blank (cap : Nat) : St := { buf := List.replicate cap 0, x2 := 0, z := 0 }

/-- What normalising makes of the character at position `i`. -/
def normAt (s : St) (i : Nat) (v : UInt8) : UInt8 := if 1 < s.z ∨ s.z = 1 ∧ i < s.x2 then norm v else v

theorem normalize_at (cap : Nat) (s : St) (hl : s.buf.length = cap) (hx : s.x2 < cap - 1) :
    ∃ buf, normalize cap s = .ok buf ∧ buf.length = cap ∧
      ∀ i v, 1 ≤ i → i < cap - 1 → s.buf[i]? = some v → buf[i]? = some (normAt s i v) := by
  unfold normalize
  by_cases hz : s.z = 0
  · rw [if_neg (by simp [hz])]
    refine ⟨s.buf, rfl, hl, fun i v _ _ h => ?_⟩
    rw [h, normAt, if_neg (by omega)]
  · rw [if_pos hz]
    by_cases h1 : s.z > 1
    · rw [if_pos h1]
      obtain ⟨b, eb, lb, ib⟩ := normLoop_ok (cap - 1 - 1) 1 s.buf (by omega)
      refine ⟨b, eb, by omega, fun i v h2 h3 h => ?_⟩
      rw [ib, if_pos (by omega), h, normAt, if_pos (.inl h1)]; rfl
    · rw [if_neg h1]
      obtain ⟨b, eb, lb, ib⟩ := normLoop_ok (s.x2 - 1) 1 s.buf (by omega)
      refine ⟨b, eb, by omega, fun i v h2 h3 h => ?_⟩
      rw [ib, h, normAt]
      by_cases hi : i < s.x2
      · rw [if_pos (by omega), if_pos (by omega)]; rfl
      · rw [if_neg (by omega), if_neg (by omega)]

/-- The object name in terms of the mixed buffer. -/
theorem mangle_at (cap al : Nat) (pre : List UInt8) (size : Nat) (name : List UInt8)
    (hcap : 3 ≤ cap) (hpre : ∃ p q, pre = 47 :: p :: q) (h0p : 0 ∉ pre) (h0n : 0 ∉ name) :
    ∃ w rest s, mangle cap al pre size name = .ok ([47] ++ (w ++ 0 :: rest)) ∧ 0 ∉ w ∧
      mix cap (fullText pre (al % 4294967296) (size % 4294967296) name) (blank cap) = .ok s ∧
      MixInv cap (fullText pre (al % 4294967296) (size % 4294967296) name) 47 s ∧
      ∀ i v, 1 ≤ i → i < min (fullText pre (al % 4294967296) (size % 4294967296) name).length (cap - 1) →
        s.buf[i]? = some v → w[i - 1]? = some (san (normAt s i v)) := by
  obtain ⟨w, rest, e, w0, _, _, wl, _⟩ := mangle_ok cap al pre size name hcap hpre h0p h0n
  have hns : 0 ∉ [45] ++ numeral (al % 4294967296) ++ [45] ++ numeral (size % 4294967296) ++ [45] := by
    have z : ∀ n, (0 : UInt8) ∉ numeral n := fun n h => by have := numeral_digit n 0 h; simp at this
    simp [z]
  generalize hF : fullText pre (al % 4294967296) (size % 4294967296) name = full at *
  have hfull : full = pre ++ (([45] ++ numeral (al % 4294967296) ++ [45] ++
      numeral (size % 4294967296) ++ [45]) ++ name) := by
    rw [← hF]; simp [fullText]
  obtain ⟨p, q, hpre⟩ := hpre
  have h0f : 0 ∉ full := by
    rw [hfull]; simp only [List.mem_append, not_or] at hns ⊢
    exact ⟨h0p, hns, h0n⟩
  obtain ⟨s, es, inv⟩ := mix_inv cap 47 hcap full [] (blank cap) h0f
    (by intro _ c hc; simp [hfull, hpre] at hc; exact hc.symm) (init_inv cap 47 hcap)
  rw [List.nil_append] at inv
  refine ⟨w, rest, s, e, w0, es, inv, ?_⟩
  intro i v h1 h2 hv
  obtain ⟨buf, eb, lb, hb⟩ := normalize_at cap s inv.len inv.x2
  have es' := es
  rw [hfull, mix_append] at es'
  have hm : mangle cap al pre size name = slashLoop cap (cap + 1) 1 buf := by
    unfold mangle
    change (mix cap pre (blank cap) >>= _) = _
    cases h1 : mix cap pre (blank cap) with
    | error x => rw [h1] at es'; cases es'
    | ok s1 =>
      rw [h1, ok_bind, mix_append] at es'
      rw [ok_bind, nums_ok, ok_bind]
      cases h2 : mix cap ([45] ++ numeral (al % 4294967296) ++ [45] ++ numeral (size % 4294967296) ++ [45]) s1 with
      | error x => rw [h2] at es'; cases es'
      | ok s2 =>
        rw [h2, ok_bind] at es'
        rw [ok_bind, es', ok_bind, eb, ok_bind]
  rw [e] at hm
  -- the loop over the slashes, position by position
  have key : ∀ (fuel x : Nat) (b b' : List UInt8), slashLoop cap fuel x b = .ok b' → b'.length = b.length ∧
      ∀ (j : Nat) (u v : UInt8), b[j]? = some v → b'[j]? = some u → u = v ∨ u = san v := by
    intro fuel
    induction fuel with
    | zero => intro x b b' h; cases h
    | succ n ih =>
      intro x b b' h
      rw [slashLoop] at h
      by_cases hx : x < cap
      · rw [if_pos hx] at h
        by_cases hxb : x < b.length
        · rw [rd_ok hxb, ok_bind] at h
          split at h
          · cases h; exact ⟨rfl, fun j u v h1 h2 => .inl (by rw [h1] at h2; cases h2; rfl)⟩
          · next hne =>
            split at h
            · next hsl =>
              rw [wr_ok _ hxb, ok_bind] at h
              obtain ⟨l1, k1⟩ := ih (x + 1) _ _ h
              refine ⟨by simpa using l1, fun j u v h1 h2 => ?_⟩
              by_cases hj : x = j
              · subst hj
                rw [List.getElem?_eq_getElem hxb] at h1
                cases h1
                have := k1 x u 95 (by rw [List.getElem?_set]; simp [hxb]) h2
                right
                have e1 : san b[x] = 95 := by unfold san; rw [if_pos hsl]
                have e2 : san 95 = 95 := by decide
                rw [e1]; rw [e2] at this
                exact this.elim id id
              · exact k1 j u v (by rw [List.getElem?_set, if_neg hj]; exact h1) h2
            · rw [ok_bind] at h
              exact ih (x + 1) _ _ h
        · rw [rd, List.getElem?_eq_none (by omega)] at h
          cases h
      · rw [if_neg hx] at h
        cases h; exact ⟨rfl, fun j u v h1 h2 => .inl (by rw [h1] at h2; cases h2; rfl)⟩
  obtain ⟨_, hk⟩ := key _ _ _ _ hm.symm
  have hbi := hb i v h1 (by omega) hv
  have hwi : i - 1 < w.length := by omega
  have hget : ([47] ++ (w ++ 0 :: rest))[i]? = some (w[i - 1]) := by
    obtain ⟨n, rfl⟩ : ∃ n, i = n + 1 := ⟨i - 1, by omega⟩
    simp only [Nat.add_sub_cancel] at hwi ⊢
    simp [List.getElem?_append_left hwi, List.getElem?_eq_getElem hwi]
  have hr := hk i _ _ hbi hget
  rw [List.getElem?_eq_getElem hwi]
  rcases hr with hr | hr
  · -- no slash is left, so nothing was to replace
    obtain ⟨w', rest', e', _, n47, n92, _, _⟩ := mangle_ok cap al pre size name hcap ⟨p, q, hpre⟩ h0p h0n
    have hw' : w' = w := by
      rw [e] at e'
      simp only [Except.ok.injEq, List.append_cancel_left_eq] at e'
      have c1 := cstr_ok w rest w0
      rw [e'] at c1
      obtain ⟨w'', rest'', e'', z'', _⟩ := mangle_ok cap al pre size name hcap ⟨p, q, hpre⟩ h0p h0n
      have : 0 ∉ w' := by assumption
      rw [cstr_ok w' rest' this] at c1
      cases c1; rfl
    subst hw'
    have hmem : w'[i - 1] ∈ w' := List.getElem_mem hwi
    congr 1
    unfold san
    rw [if_neg]
    · exact hr
    · rw [← hr]
      rintro (h | h)
      · exact n92 (h ▸ hmem)
      · exact n47 (h ▸ hmem)
  · exact congrArg some hr

/-- Two mixed buffers that differ at one place. -/
structure Off (cap : Nat) (c d : UInt8) (s t : St) (k : Nat) : Prop where
  x2 : s.x2 = t.x2
  z : s.z = t.z
  len : s.buf.length = cap ∧ t.buf.length = cap
  pos : 1 ≤ k ∧ k < cap - 1
  low : ∀ u v, s.buf[k]? = some u → t.buf[k]? = some v → u.toNat % 64 ≠ v.toNat % 64
  raw : s.z = 0 ∧ k < s.x2 ∨ s.z = 1 ∧ s.x2 ≤ k → s.buf[k]? = some c ∧ t.buf[k]? = some d
  same : ∀ i : Nat, i ≠ k → s.buf[i]? = t.buf[i]?
  none : s.z = 0 → k < s.x2

theorem low_mix (a b e : UInt8) (h : a.toNat % 64 ≠ b.toNat % 64) :
    (a * 37 + e).toNat % 64 ≠ (b * 37 + e).toNat % 64 := by
  rw [UInt8.toNat_add, UInt8.toNat_mul, UInt8.toNat_add, UInt8.toNat_mul]
  simp only [UInt8.reduceToNat]
  omega

theorem off_step (cap : Nat) (c d e : UInt8) (s t : St) (k : Nat) (h : Off cap c d s t k) (hx : s.x2 < cap - 1) :
    ∃ s' t', mix1 cap e s = .ok s' ∧ mix1 cap e t = .ok t' ∧ Off cap c d s' t' k ∧ s'.x2 < cap - 1 := by
  obtain ⟨ex, ez, ⟨l1, l2⟩, ⟨p1, p2⟩, low, raw, same, hn⟩ := h
  have h1 : s.x2 < s.buf.length := by omega
  have h2 : t.x2 < t.buf.length := by omega
  unfold mix1
  rw [rd_ok h1, ok_bind, wr_ok _ h1, ok_bind, rd_ok h2, ok_bind, wr_ok _ h2, ok_bind]
  have hlow : ∀ u v, (s.buf.set s.x2 (s.buf[s.x2] * 37 + e))[k]? = some u →
      (t.buf.set t.x2 (t.buf[t.x2] * 37 + e))[k]? = some v → u.toNat % 64 ≠ v.toNat % 64 := by
    intro u v hu hv
    rw [List.getElem?_set] at hu hv
    by_cases hk : s.x2 = k
    · have hk2 : t.x2 = k := by omega
      rw [if_pos hk, if_pos h1] at hu
      rw [if_pos hk2, if_pos h2] at hv
      cases hu; cases hv
      apply low_mix
      apply low
      · rw [← hk]; exact List.getElem?_eq_getElem h1
      · rw [← hk2]; exact List.getElem?_eq_getElem h2
    · rw [if_neg hk] at hu
      rw [if_neg (by omega)] at hv
      exact low u v hu hv
  have hsame : ∀ i : Nat, i ≠ k → (s.buf.set s.x2 (s.buf[s.x2] * 37 + e))[i]? =
      (t.buf.set t.x2 (t.buf[t.x2] * 37 + e))[i]? := by
    intro i hi
    rw [List.getElem?_set, List.getElem?_set]
    by_cases hix : s.x2 = i
    · rw [if_pos hix, if_pos h1, if_pos (by omega), if_pos h2]
      have h3 : s.buf[s.x2]? = t.buf[t.x2]? := by rw [same _ (by omega), ex]
      rw [List.getElem?_eq_getElem h1, List.getElem?_eq_getElem h2, Option.some.injEq] at h3
      rw [h3]
    · rw [if_neg hix, if_neg (by omega)]; exact same i hi
  by_cases hw : s.x2 + 1 = cap - 1
  · rw [if_pos hw, if_pos (by omega)]
    refine ⟨_, _, rfl, rfl, ⟨rfl, by dsimp only; omega, by simp [l1, l2], ⟨p1, p2⟩, hlow, ?_, hsame, ?_⟩, ?_⟩
    · dsimp only
      intro hr
      have hz : s.z = 0 := by omega
      have hk := hn hz
      have := raw (.inl ⟨hz, hk⟩)
      rw [List.getElem?_set, List.getElem?_set, if_neg (by omega), if_neg (by omega)]
      exact this
    · dsimp only; omega
    · dsimp only; omega
  · rw [if_neg hw, if_neg (by omega)]
    refine ⟨_, _, rfl, rfl, ⟨by dsimp only; omega, ez, by simp [l1, l2], ⟨p1, p2⟩, hlow, ?_, hsame, ?_⟩, ?_⟩
    · dsimp only
      intro hr
      have := raw (by
        rcases hr with ⟨hz, _⟩ | ⟨hz, hk⟩
        · exact .inl ⟨hz, hn hz⟩
        · exact .inr ⟨hz, by omega⟩)
      rw [List.getElem?_set, List.getElem?_set]
      have hne : s.x2 ≠ k := by
        rcases hr with ⟨hz, _⟩ | ⟨hz, hk⟩
        · have := hn hz; omega
        · omega
      rw [if_neg hne, if_neg (by omega)]
      exact this
    · dsimp only; intro hz; have := hn hz; omega
    · dsimp only; omega

theorem off_mix (cap : Nat) (c d : UInt8) (k : Nat) : ∀ (q : List UInt8) (s t : St), Off cap c d s t k → s.x2 < cap - 1 →
    ∃ s' t', mix cap q s = .ok s' ∧ mix cap q t = .ok t' ∧ Off cap c d s' t' k
  | [], s, t, h, _ => ⟨s, t, rfl, rfl, h⟩
  | e :: q, s, t, h, hx => by
    obtain ⟨s1, t1, e1, e2, h1, hx1⟩ := off_step cap c d e s t k h hx
    obtain ⟨s2, t2, e3, e4, h2⟩ := off_mix cap c d k q s1 t1 h1 hx1
    exact ⟨s2, t2, by rw [mix, e1, ok_bind, e3], by rw [mix, e2, ok_bind, e4], h2⟩

theorem low_add (o c d : UInt8) (h : c.toNat % 64 ≠ d.toNat % 64) :
    (o * 37 + c).toNat % 64 ≠ (o * 37 + d).toNat % 64 := by
  rw [UInt8.toNat_add, UInt8.toNat_add]
  omega

/-- The step at which the two names differ. -/
theorem off_start (cap : Nat) (hist : List UInt8) (c d : UInt8) (s : St) (hcap : 3 ≤ cap) (hh : hist ≠ [])
    (h : MixInv cap hist 47 s) (hcd : c.toNat % 64 ≠ d.toNat % 64) :
    ∃ s' t', mix1 cap c s = .ok s' ∧ mix1 cap d s = .ok t' ∧ Off cap c d s' t' s.x2 ∧ s'.x2 < cap - 1 := by
  obtain ⟨len, x2, last, cnt, wrapped, exact1, plain, fst, zero, nz0, nz1⟩ := h
  have hx : s.x2 < s.buf.length := by omega
  have hp : 0 < hist.length := List.length_pos_iff.mpr hh
  have h1 : 1 ≤ s.x2 := by
    by_cases hz : s.z = 0
    · have := cnt hz; omega
    · exact (wrapped hz).2
  have hz0 : s.z = 0 → s.buf[s.x2] = 0 := by
    intro hz
    have := zero hz s.x2 (Nat.le_refl _) (by omega)
    simpa [List.getElem?_eq_getElem hx] using this
  have hlow : ∀ u v, (s.buf.set s.x2 (s.buf[s.x2] * 37 + c))[s.x2]? = some u →
      (s.buf.set s.x2 (s.buf[s.x2] * 37 + d))[s.x2]? = some v → u.toNat % 64 ≠ v.toNat % 64 := by
    intro u v hu hv
    rw [List.getElem?_set, if_pos rfl, if_pos hx] at hu hv
    cases hu; cases hv
    exact low_add _ _ _ hcd
  have hraw : s.z = 0 → (s.buf.set s.x2 (s.buf[s.x2] * 37 + c))[s.x2]? = some c ∧
      (s.buf.set s.x2 (s.buf[s.x2] * 37 + d))[s.x2]? = some d := by
    intro hz
    rw [List.getElem?_set, List.getElem?_set, if_pos rfl, if_pos hx, if_pos rfl, if_pos hx, hz0 hz]
    simp
  have hsame : ∀ i : Nat, i ≠ s.x2 → (s.buf.set s.x2 (s.buf[s.x2] * 37 + c))[i]? =
      (s.buf.set s.x2 (s.buf[s.x2] * 37 + d))[i]? := by
    intro i hi
    rw [List.getElem?_set, List.getElem?_set, if_neg (by omega), if_neg (by omega)]
  unfold mix1
  rw [rd_ok hx, ok_bind, wr_ok _ hx, ok_bind, ok_bind, wr_ok _ hx, ok_bind]
  by_cases hw : s.x2 + 1 = cap - 1
  · rw [if_pos hw, if_pos hw]
    refine ⟨_, _, rfl, rfl, ⟨rfl, rfl, by simp [len], ⟨h1, x2⟩, hlow, ?_, hsame, ?_⟩, ?_⟩
    · dsimp only; intro hr; exact hraw (by omega)
    · dsimp only; omega
    · dsimp only; omega
  · rw [if_neg hw, if_neg hw]
    refine ⟨_, _, rfl, rfl, ⟨rfl, rfl, by simp [len], ⟨h1, x2⟩, hlow, ?_, hsame, ?_⟩, ?_⟩
    · dsimp only; intro hr; exact hraw (by omega)
    · dsimp only; omega
    · dsimp only; omega

theorem norm_inj (a b : UInt8) (h : a.toNat % 64 ≠ b.toNat % 64) : san (norm a) ≠ san (norm b) := by
  have key : ∀ m n : Fin 64, m ≠ n → san (norm (UInt8.ofNat m)) ≠ san (norm (UInt8.ofNat n)) := by decide +kernel
  have red : ∀ n : Fin 256, norm (UInt8.ofNat n) = norm (UInt8.ofNat (n % 64)) := by decide +kernel
  have ra := red ⟨a.toNat, a.toNat_lt⟩
  have rb := red ⟨b.toNat, b.toNat_lt⟩
  simp only [UInt8.ofNat_toNat] at ra rb
  rw [ra, rb]
  exact key ⟨a.toNat % 64, by omega⟩ ⟨b.toNat % 64, by omega⟩ (by simpa using h)

/-- **C38** for names of every length (partial): names that differ in one character, and there in its low six bits, name
different objects, unless both characters are among `/`, `\` and `_`.  Missing: names that differ otherwise; see
`long_collides`. -/
theorem one_character_partial (cap al hdr : Nat) (k : Kind) (size : Nat) (p q : List UInt8) (c d : UInt8)
    (hcap : 3 ≤ cap) (hal : 0 < al) (hp : 0 ∉ p) (hq : 0 ∉ q) (hc : c ≠ 0) (hd : d ≠ 0)
    (hcd : c.toNat % 64 ≠ d.toNat % 64) (hs : ¬ (slashLike c ∧ slashLike d)) :
    shmName cap al hdr k.pre size (p ++ c :: q) ≠ shmName cap al hdr k.pre size (p ++ d :: q) := by
  obtain ⟨t, ht⟩ : ∃ t, alignSize al ((size + hdr) % 18446744073709551616) = .ok t := by
    unfold alignSize; rw [if_neg (by omega)]; exact ⟨_, rfl⟩
  obtain ⟨hpre, hp0⟩ := pre_shape k
  have m1 : 0 ∉ p ++ c :: q := by
    simp only [List.mem_append, List.mem_cons, not_or]; exact ⟨hp, hc.symm, hq⟩
  have m2 : 0 ∉ p ++ d :: q := by
    simp only [List.mem_append, List.mem_cons, not_or]; exact ⟨hp, hd.symm, hq⟩
  obtain ⟨w1, r1, s1, e1, z1, f1, i1, g1⟩ := mangle_at cap al k.pre t (p ++ c :: q) hcap hpre hp0 m1
  obtain ⟨w2, r2, s2, e2, z2, f2, i2, g2⟩ := mangle_at cap al k.pre t (p ++ d :: q) hcap hpre hp0 m2
  rw [shmName, shmName, ht, ok_bind, ok_bind, e1, e2, ok_bind, ok_bind, ← List.append_assoc, ← List.append_assoc,
    cstr_ok _ _ (by simp [z1]), cstr_ok _ _ (by simp [z2])]
  intro he
  simp only [Except.ok.injEq, List.append_cancel_left_eq] at he
  -- the common part
  generalize hA : fullText k.pre (al % 4294967296) (t % 4294967296) p = A at *
  have a1 : fullText k.pre (al % 4294967296) (t % 4294967296) (p ++ c :: q) = A ++ (c :: q) := by
    rw [← hA]; simp [fullText]
  have a2 : fullText k.pre (al % 4294967296) (t % 4294967296) (p ++ d :: q) = A ++ (d :: q) := by
    rw [← hA]; simp [fullText]
  rw [a1] at f1 i1 g1
  rw [a2] at f2 i2 g2
  have hA0 : 0 ∉ A := by
    have z : ∀ n, (0 : UInt8) ∉ numeral n := fun n h => by have := numeral_digit n 0 h; simp at this
    rw [← hA]; simp [fullText, z, hp0, hp]
  have hAne : A ≠ [] := by rw [← hA]; simp [fullText]
  obtain ⟨s, es, inv⟩ := mix_inv cap 47 hcap A [] (blank cap) hA0
    (by
      obtain ⟨x, y, hx⟩ := hpre
      intro _ c hc; rw [← hA] at hc; simp [fullText, hx] at hc; exact hc.symm) (init_inv cap 47 hcap)
  rw [List.nil_append] at inv
  obtain ⟨u, v, eu, ev, off, hux⟩ := off_start cap A c d s hcap hAne inv hcd
  obtain ⟨u', v', eu', ev', off'⟩ := off_mix cap c d s.x2 q u v off hux
  rw [mix_append, es, ok_bind, mix, eu, ok_bind, eu'] at f1
  rw [mix_append, es, ok_bind, mix, ev, ok_bind, ev'] at f2
  have f1 := Except.ok.inj f1
  have f2 := Except.ok.inj f2
  subst f1; subst f2
  obtain ⟨ex, ez, ⟨l1, l2⟩, ⟨p1, p2⟩, low, raw, same, hn⟩ := off'
  have hk1 : s.x2 < u'.buf.length := by omega
  have hk2 : s.x2 < v'.buf.length := by omega
  have hlen : s.x2 < (A ++ c :: q).length := by
    by_cases hz : u'.z = 0
    · have h1 := i1.cnt hz
      have h2 := hn hz
      omega
    · have := (i1.wrapped hz).1
      omega
  have hlen2 : s.x2 < (A ++ d :: q).length := by simpa using hlen
  have v1 := g1 s.x2 _ p1 (by omega) (List.getElem?_eq_getElem hk1)
  have v2 := g2 s.x2 _ p1 (by omega) (List.getElem?_eq_getElem hk2)
  rw [he, v2, Option.some.injEq] at v1
  have hlow := low _ _ (List.getElem?_eq_getElem hk1) (List.getElem?_eq_getElem hk2)
  unfold normAt at v1
  rw [← ex, ← ez] at v1
  by_cases hnorm : 1 < u'.z ∨ u'.z = 1 ∧ s.x2 < u'.x2
  · rw [if_pos hnorm, if_pos hnorm] at v1
    exact norm_inj _ _ hlow v1.symm
  · rw [if_neg hnorm, if_neg hnorm] at v1
    obtain ⟨rc, rd'⟩ := raw (by
      by_cases hz : u'.z = 0
      · exact .inl ⟨hz, hn hz⟩
      · exact .inr ⟨by omega, by omega⟩)
    rw [List.getElem?_eq_getElem hk1] at rc
    rw [List.getElem?_eq_getElem hk2] at rd'
    cases rc; cases rd'
    rcases (san_alike _ _ hd).mp v1 with h | ⟨h1, h2⟩
    · exact hcd (by rw [h])
    · exact hs ⟨h2, h1⟩

/- Hypotheses met: a name of over 300 characters in which an "A" becomes a "b", on a system with names of 31 characters. -/
example : (3 ≤ 31) ∧ 0 < 4 ∧ (0 : UInt8) ∉ List.replicate 300 65 ∧ (65 : UInt8).toNat % 64 ≠ (98 : UInt8).toNat % 64 ∧
    ¬ (slashLike 65 ∧ slashLike 98) := by
  refine ⟨by decide, by decide, by decide +kernel, by decide, ?_⟩
  unfold slashLike
  decide

end Verif.ShmName
