import Verif.File.Spec

namespace Verif.File
open Spec

variable {α : Type}

/-- Object, kernel and byte array agree. -/
structure Ok (f : F α) (a : A α) : Prop where
  op : f.opened = true
  data : f.data = a.bytes
  off : f.off = a.cur
  curr : f.curr = a.cur
  max : f.max = a.bytes.length
  le : a.cur ≤ a.bytes.length
  lt : a.bytes.length < 2 ^ 63

theorem seek_ok {f : F α} {a : A α} (h : Ok f a) (w : Whence) (pos : Nat)
    (hw : w = .forward → a.cur + pos < 2 ^ 64) :
    (seek f w pos).1 = true ∧
      Ok (seek f w pos).2 { a with cur := clamp a.bytes.length (target a w pos) } := by
  obtain ⟨h1, h2, h3, h4, h5, h6, h7⟩ := h
  have ht : seekTarget f w pos = clamp a.bytes.length (target a w pos) := by
    unfold seekTarget clamp target
    cases w <;> simp only [h4, h5]
    · split <;> omega
    · split <;> omega
    · rw [Nat.mod_eq_of_lt (hw rfl)]
      split <;> omega
    · split <;> omega
    · omega
  have hle : clamp a.bytes.length (target a w pos) ≤ a.bytes.length := Nat.min_le_left _ _
  unfold seek
  rw [h1, ht]
  simp only [Bool.not_true, Bool.false_eq_true, if_false]
  rw [if_neg (by omega)]
  exact ⟨rfl, rfl, h2, rfl, rfl, h5, hle, h7⟩

theorem sub64_ok {f : F α} {a : A α} (h : Ok f a) : sub64 f.max f.curr = a.bytes.length - a.cur := by
  obtain ⟨h1, h2, h3, h4, h5, h6, h7⟩ := h
  unfold sub64
  omega

theorem readUpdate_ok {f : F α} {a : A α} (h : Ok f a) (n : Nat) : readUpdate f n = f := by
  unfold readUpdate updateMax
  rw [h.op]
  have : ({ f with opened := true, max := f.data.length } : F α) = f := by
    have h1 := h.op
    cases f with
    | mk d o op r w c m =>
      have := h.max
      have h2 := h.data
      simp only at this h2 h1 ⊢
      rw [this, h2, h1]
  simp [this]

theorem gotBytes_ok {f : F α} {a : A α} (h : Ok f a) (k : Nat) (hk : a.cur + k ≤ a.bytes.length) :
    (gotBytes f k).1 = .got ((a.bytes.drop a.cur).take k) ∧ Ok (gotBytes f k).2 { a with cur := a.cur + k } := by
  obtain ⟨h1, h2, h3, h4, h5, h6, h7⟩ := h
  have hlen : ((f.data.drop f.off).take k).length = k := by rw [h2, h3]; simp; omega
  unfold gotBytes
  rw [hlen]
  refine ⟨by rw [h2, h3], h1, h2, by simp only [h3], ?_, h5, hk, h7⟩
  simp only [h4]
  exact Nat.mod_eq_of_lt (by omega)

theorem readLoop_ok {f : F α} {a : A α} (h : Ok f a) (n : Nat) (hn : a.cur + n ≤ a.bytes.length) (hn0 : n ≠ 0) :
    ∀ o, (Sys.fail ∈ o ∧ readLoop f n o = (.failed, f)) ∨
      ∃ k, k ≤ n ∧ 0 < k ∧ ((∀ k, Sys.some k ∉ o) → k = n) ∧
        (readLoop f n o).1 = .got ((a.bytes.drop a.cur).take k) ∧
        Ok (readLoop f n o).2 { a with cur := a.cur + k }
  | [] => by
    right
    obtain ⟨h1, h2⟩ := gotBytes_ok h n hn
    exact ⟨n, Nat.le_refl _, by omega, fun _ => rfl, h1, h2⟩
  | .intr :: o => by
    rcases readLoop_ok h n hn hn0 o with ⟨h1, h2⟩ | ⟨k, h1, h2, h3, h4⟩
    · exact .inl ⟨List.mem_cons_of_mem _ h1, h2⟩
    · exact .inr ⟨k, h1, h2, fun hh => h3 (fun k hk => hh k (List.mem_cons_of_mem _ hk)), h4⟩
  | .fail :: o => .inl ⟨List.mem_cons_self .., rfl⟩
  | .some k :: o => by
    right
    have hk : 0 < min n (max 1 k) ∧ min n (max 1 k) ≤ n := by omega
    obtain ⟨h1, h2⟩ := gotBytes_ok h (min n (max 1 k)) (by omega)
    exact ⟨_, hk.2, hk.1, fun hh => absurd (List.mem_cons_self ..) (hh k), h1, h2⟩

theorem flags_gotBytes (f : F α) (n : Nat) : (gotBytes f n).2.rd = f.rd ∧ (gotBytes f n).2.wr = f.wr :=
  ⟨rfl, rfl⟩

theorem flags_readLoop (f : F α) (n : Nat) : ∀ o, (readLoop f n o).2.rd = f.rd ∧ (readLoop f n o).2.wr = f.wr
  | [] => ⟨rfl, rfl⟩
  | .intr :: o => flags_readLoop f n o
  | .fail :: _ => ⟨rfl, rfl⟩
  | .some _ :: _ => ⟨rfl, rfl⟩

theorem read_ok {f : F α} {a : A α} (h : Ok f a) (hr : f.rd = true) (n : Nat) (o : List Sys) :
    ∃ b, Does a (.read n o) (.read (read f n o).1) b ∧ Ok (read f n o).2 b ∧
      (read f n o).2.rd = f.rd ∧ (read f n o).2.wr = f.wr := by
  unfold read
  rw [h.op, hr, readUpdate_ok h]
  simp only [Bool.not_true, Bool.or_false, Bool.false_eq_true, if_false]
  have hsz : readSize f n = min n (a.bytes.length - a.cur) := by
    unfold readSize
    rw [sub64_ok h]
    split <;> omega
  have hle := h.le
  rw [hsz]
  by_cases h0 : min n (a.bytes.length - a.cur) = 0
  · rw [if_pos h0]
    have := Does.read (a := a) n o 0 (by omega) (by omega) (by omega) (fun _ => h0.symm)
    exact ⟨a, by simpa using this, h, hr, rfl⟩
  · rw [if_neg h0]
    rcases readLoop_ok h (min n (a.bytes.length - a.cur)) (by omega) h0 o with ⟨h1, h2⟩ | ⟨k, h1, h2, h3, h4, h5⟩
    · rw [h2]
      exact ⟨a, .readFail n o h1, h, hr, rfl⟩
    · rw [h4]
      refine ⟨_, .read n o k (by omega) (by omega) (by omega) ?_, h5, ?_⟩
      · intro hh
        exact h3 hh
      · rw [← hr]; exact flags_readLoop _ _ _

/-- What a complete read delivers. -/
theorem read_full {f : F α} {a : A α} (h : Ok f a) (hr : f.rd = true) (n : Nat) :
    (read f n []).1 = .got ((a.bytes.drop a.cur).take n) ∧
      Ok (read f n []).2 { a with cur := a.cur + min n (a.bytes.length - a.cur) } ∧
      (read f n []).2.rd = f.rd ∧ (read f n []).2.wr = f.wr := by
  obtain ⟨b, hd, hok, hfl⟩ := read_ok h hr n []
  cases hrd : (read f n []).1 with
  | refused => rw [hrd] at hd; cases hd
  | failed => rw [hrd] at hd; cases hd; contradiction
  | got bs =>
    rw [hrd] at hd
    cases hd with
    | read _ _ k hk hb h0 hf =>
      have hk := hf (by simp)
      subst hk
      refine ⟨?_, hok, hfl⟩
      congr 1
      have := h.le
      rcases Nat.le_total n (a.bytes.length - a.cur) with h9 | h9
      · rw [Nat.min_eq_left h9]
      · rw [Nat.min_eq_right h9, List.take_of_length_le (by simp), List.take_of_length_le (by simp; omega)]

/-- While a write is under way: `w` bytes are already stored, the fields are still the old ones. -/
structure Mid (f : F α) (a : A α) (new : List α) : Prop where
  op : f.opened = true
  data : f.data = overwrite a.bytes a.cur new
  off : f.off = a.cur + new.length
  curr : f.curr = a.cur
  max : f.max = a.bytes.length
  le : a.cur ≤ a.bytes.length

theorem overwrite_append (b : List α) (c : Nat) (x y : List α) (hc : c ≤ b.length) :
    (overwrite b c x).take (c + x.length) ++ y ++ (overwrite b c x).drop (c + x.length + y.length) =
      overwrite b c (x ++ y) := by
  unfold overwrite
  have h1 : (b.take c ++ x).length = c + x.length := by simp; omega
  rw [← h1, List.take_left, Nat.add_comm _ y.length]
  rw [show y.length + (b.take c ++ x).length = (b.take c ++ x).length + y.length by omega]
  rw [List.drop_append, List.drop_drop]
  have h2 : List.drop ((List.take c b ++ x).length + y.length) (b.take c ++ x) = [] := by
    apply List.drop_of_length_le; omega
  rw [h2, List.nil_append, h1]
  simp only [List.append_assoc, List.length_append]
  congr 4
  omega

theorem overwrite_length (b : List α) (c : Nat) (x : List α) (hc : c ≤ b.length) :
    (overwrite b c x).length = max b.length (c + x.length) := by
  unfold overwrite
  simp only [List.length_append, List.length_take, List.length_drop]
  omega

theorem store_mid {f : F α} {a : A α} {new : List α} (h : Mid f a new) (bs : List α) :
    Mid (store f bs) a (new ++ bs) := by
  obtain ⟨h1, h2, h3, h4, h5, h6⟩ := h
  refine ⟨h1, ?_, ?_, h4, h5, h6⟩
  · simp only [store, h2, h3]
    exact overwrite_append a.bytes a.cur new bs h6
  · simp only [store, h3, List.length_append]; omega

theorem writeEnd_ok {f : F α} {a : A α} {new : List α} (h : Mid f a new) (hlt : a.cur + new.length < 2 ^ 63)
    (hl : a.bytes.length < 2 ^ 63) :
    (writeEnd f new.length).1 = .done new.length ∧
      Ok (writeEnd f new.length).2 { bytes := overwrite a.bytes a.cur new, cur := a.cur + new.length } := by
  obtain ⟨h1, h2, h3, h4, h5, h6⟩ := h
  have hlen := overwrite_length a.bytes a.cur new h6
  have hmod : (a.cur + new.length) % 2 ^ 64 = a.cur + new.length := Nat.mod_eq_of_lt (by omega)
  have hm1 : a.bytes.length ≤ max a.bytes.length (a.cur + new.length) := Nat.le_max_left _ _
  have hm2 : a.cur + new.length ≤ max a.bytes.length (a.cur + new.length) := Nat.le_max_right _ _
  refine ⟨rfl, h1, h2, h3, ?_, ?_, by simp only [hlen]; exact hm2, ?_⟩
  · simp only [writeEnd, h4, hmod]
  · simp only [writeEnd, h4, h5, hmod, hlen]
    split <;> omega
  · simp only [hlen]
    omega

theorem sysWrite_ok {f : F α} {buf : List α} {pos n : Nat} (h1 : pos + n ≤ buf.length) (h2 : f.off + n < 2 ^ 63) :
    sysWrite f buf pos n = .ok (some (store f ((buf.drop pos).take n))) := by
  unfold sysWrite
  rw [if_pos h1, if_pos h2]

theorem take_step (buf : List α) (p0 w n : Nat) (h : p0 + w + n ≤ buf.length) :
    (buf.drop p0).take w ++ (buf.drop (p0 + w)).take n = (buf.drop p0).take (w + n) := by
  rw [List.take_add, List.drop_drop]

theorem writeLoop_ok {a : A α} (buf : List α) (p0 total : Nat) (hb : p0 + total ≤ buf.length)
    (hlt : a.cur + total < 2 ^ 63) (hl : a.bytes.length < 2 ^ 63) :
    ∀ (o : List Sys), Sys.intr ∉ o → Sys.fail ∉ o → ∀ (w : Nat) (f : F α), w ≤ total → Mid f a ((buf.drop p0).take w) →
    ∃ f', writeLoop buf f (p0 + w) (total - w) w o = .ok (.done total, f') ∧
      Ok f' { bytes := overwrite a.bytes a.cur ((buf.drop p0).take total), cur := a.cur + total } ∧
      f'.rd = f.rd ∧ f'.wr = f.wr
  | [], _, _, w, f, hw, hm => by
    have hlen : ((buf.drop p0).take w).length = w := by simp; omega
    have hlen2 : ((buf.drop p0).take total).length = total := by simp; omega
    have hoff := hm.off
    rw [hlen] at hoff
    have hm2 := store_mid hm ((buf.drop (p0 + w)).take (total - w))
    rw [take_step buf p0 w (total - w) (by omega), show w + (total - w) = total by omega] at hm2
    obtain ⟨h1, h2⟩ := writeEnd_ok hm2 (by rw [hlen2]; exact hlt) hl
    rw [hlen2] at h1 h2
    rw [writeLoop, sysWrite_ok (by omega) (by omega), ok_bind]
    dsimp only
    rw [show (w + (total - w)) % 2 ^ 64 = total by omega]
    exact ⟨_, by rw [← h1], h2, rfl, rfl⟩
  | .intr :: o, h, _, _, _, _, _ => absurd (List.mem_cons_self ..) h
  | .fail :: o, _, h, _, _, _, _ => absurd (List.mem_cons_self ..) h
  | .some k :: o, hi, hf, w, f, hw, hm => by
    have hlen : ((buf.drop p0).take w).length = w := by simp; omega
    have hoff := hm.off
    rw [hlen] at hoff
    have hm2 := store_mid hm ((buf.drop (p0 + w)).take (min k (total - w)))
    rw [take_step buf p0 w _ (by omega)] at hm2
    rw [writeLoop, sysWrite_ok (by omega) (by omega), ok_bind]
    dsimp only
    rw [show (w + min k (total - w)) % 2 ^ 64 = w + min k (total - w) by omega]
    by_cases h0 : total - w - min k (total - w) = 0
    · rw [if_pos h0]
      have hlen2 : ((buf.drop p0).take total).length = total := by simp; omega
      have e : w + min k (total - w) = total := by omega
      rw [e] at hm2 ⊢
      obtain ⟨h1, h2⟩ := writeEnd_ok hm2 (by rw [hlen2]; exact hlt) hl
      rw [hlen2] at h1 h2
      exact ⟨_, by rw [← h1], h2, rfl, rfl⟩
    · rw [if_neg h0]
      obtain ⟨f', h1, h2⟩ := writeLoop_ok buf p0 total hb hlt hl o (fun h => hi (List.mem_cons_of_mem _ h))
        (fun h => hf (List.mem_cons_of_mem _ h)) (w + min k (total - w)) _ (by omega) hm2
      refine ⟨f', ?_, h2⟩
      rw [show p0 + (w + min k (total - w)) = p0 + w + min k (total - w) by omega,
        show total - (w + min k (total - w)) = total - w - min k (total - w) by omega] at h1
      exact h1

theorem write_ok {f : F α} {a : A α} (h : Ok f a) (hw : f.wr = true) (buf : List α) (pos size : Nat) (o : List Sys)
    (hb : pos + size ≤ buf.length) (hlt : a.cur + size < 2 ^ 63) (hi : Sys.intr ∉ o) (hf : Sys.fail ∉ o) :
    ∃ f', write f buf pos size o = .ok (.done size, f') ∧
      Ok f' { bytes := overwrite a.bytes a.cur ((buf.drop pos).take size), cur := a.cur + size } ∧
      f'.rd = f.rd ∧ f'.wr = f.wr := by
  unfold write
  rw [h.op, hw]
  simp only [Bool.not_true, Bool.or_false, Bool.false_eq_true, if_false]
  by_cases h0 : size = 0
  · subst h0
    rw [if_pos rfl]
    refine ⟨f, rfl, ?_, rfl, hw⟩
    have : overwrite a.bytes a.cur ((buf.drop pos).take 0) = a.bytes := by simp [overwrite]
    rw [this]
    exact h
  · rw [if_neg h0]
    have hm : Mid f a ((buf.drop pos).take 0) :=
      ⟨h.op, by simp [overwrite, h.data], by simp [h.off], h.curr, h.max, h.le⟩
    have := writeLoop_ok buf pos size hb hlt h.lt o hi hf 0 f (by omega) hm
    rw [hw] at this
    exact this

end Verif.File
