import Verif.File.Props

/-!
# C49, C50: copying and loading a file
-/

namespace Verif.File
open Spec

/-! ## C49 -/

/-- The loop of `Copy` when the source cursor is `m`, `W` is written already. -/
theorem copyLoop_ok (src old : List Cell) (hs : src.length + 8192 < 2 ^ 63) (ho : old.length < 2 ^ 63) :
    ∀ (fuel m : Nat) (f d : F Cell) (W buf : List Cell), Ok f ⟨src, m⟩ → f.rd = true →
    Ok d ⟨overwrite old 0 W, W.length⟩ → d.wr = true → buf.length = 8192 → src.length - m < fuel →
    (∀ j, j < min m src.length → W[j]? = src[j]?) → W.length = (m + 8191) / 8192 * 8192 → (m < src.length → m = W.length) →
    ∃ f' d' W', copyLoop fuel [] [] f d buf = .ok (f', d') ∧ Ok d' ⟨overwrite old 0 W', W'.length⟩ ∧
      W'.length = (src.length + 8191) / 8192 * 8192 ∧ W'.take src.length = src
  | 0, m, f, d, W, buf, _, _, _, _, _, hf, _, _, _ => by omega
  | fuel + 1, m, f, d, W, buf, hok, hr, hd, hw, hb, hf, hW, hWl, hmW => by
    obtain ⟨h1, h2, h3, h4⟩ := read_full hok hr 8192
    dsimp only at h1 h2
    have hm : m ≤ src.length := hok.le
    unfold copyLoop
    rw [show read f 8192 (([] : List (List Sys)).headD []) = read f 8192 [] from rfl,
      show ([] : List (List Sys)).headD [] = [] from rfl]
    dsimp only
    rw [h1]
    have hbl : ((src.drop m).take 8192).length = min 8192 (src.length - m) := by simp
    cases hbs : (src.drop m).take 8192 with
    | nil =>
      rw [hbs] at hbl
      simp at hbl
      have hms : m = src.length := by omega
      subst hms
      dsimp only
      refine ⟨_, d, W, rfl, hd, by omega, ?_⟩
      apply List.ext_getElem?
      intro j
      rw [List.getElem?_take]
      split
      · next hj => exact hW j (by omega)
      · next hj => rw [List.getElem?_eq_none (by omega)]
    | cons x bs =>
      have hbl2 := hbl
      rw [hbs] at hbl2
      simp only [List.length_cons] at hbl2
      dsimp only
      rw [memcpyTo_ok _ _ _ _ (by simp) (by omega), ok_bind, ← List.length_cons (a := x), List.take_length, ← hbs,
        hbl, List.take_zero, List.nil_append, Nat.zero_add]
      generalize hbuf : (src.drop m).take 8192 ++ buf.drop (min 8192 (src.length - m)) = buf2
      have hb2 : buf2.length = 8192 := by rw [← hbuf]; simp; omega
      have hmw : m = W.length := hmW (by omega)
      obtain ⟨d', e1, hd', _, hw'⟩ := write_ok hd hw buf2 0 8192 [] (by omega) (by dsimp only; omega) (by simp) (by simp)
      rw [e1, ok_bind]
      dsimp only at hd' ⊢
      rw [List.drop_zero, List.take_of_length_le (by omega)] at hd'
      have hov : overwrite (overwrite old 0 W) W.length buf2 = overwrite old 0 (W ++ buf2) := by
        have := overwrite_append old 0 W buf2 (Nat.zero_le _)
        rw [Nat.zero_add] at this
        exact this
      rw [hov, show W.length + 8192 = (W ++ buf2).length by simp; omega] at hd'
      obtain ⟨f2, d2, W2, e2, g1, g2, g3⟩ := copyLoop_ok src old hs ho fuel (m + min 8192 (src.length - m)) _ d' (W ++ buf2) buf2 h2
        (by rw [h3, hr]) hd' (by rw [hw', hw]) hb2 (by omega)
        (by
          intro j hj
          by_cases hjW : j < W.length
          · rw [List.getElem?_append_left hjW]
            exact hW j (by omega)
          · rw [List.getElem?_append_right (by omega), ← hbuf, List.getElem?_append_left (by rw [hbl]; omega),
              List.getElem?_take, if_pos (by omega), List.getElem?_drop]
            congr 1
            omega)
        (by simp only [List.length_append]; omega)
        (by intro hlt; simp only [List.length_append]; omega)
      exact ⟨f2, d2, W2, e2, g1, g2, g3⟩

/-- What `Copy` does, for every source and every previous destination (complete reads): the
destination begins with the source's bytes, and its length is the next multiple of 8192. -/
theorem copy_does (src : List UInt8) (old : List Cell) (hs : src.length + 8192 < 2 ^ 63) (ho : old.length < 2 ^ 63)
    (fuel : Nat) (hf : src.length < fuel) :
    ∃ r, copy (src.map some) old [] [] fuel = .ok r ∧ r.length = (src.length + 8191) / 8192 * 8192 ∧
      r.take src.length = src.map some := by
  have hb : (List.replicate 8192 (none : Cell)).length = 8192 := List.length_replicate
  have ho1 : openFile (F.fresh : F Cell) 0 .both true (some (src.map some)) true =
    (true, (openFile (F.fresh : F Cell) 0 .both true (some (src.map some)) true).2) := rfl
  have ho2 : openFile (F.fresh : F Cell) 1 .none true (some old) true =
    (true, (openFile (F.fresh : F Cell) 1 .none true (some old) true).2) := rfl
  unfold copy
  generalize (openFile (F.fresh : F Cell) 0 .both true (some (src.map some)) true).2 = f0 at ho1 ⊢
  generalize (openFile (F.fresh : F Cell) 1 .none true (some old) true).2 = d0 at ho2 ⊢
  generalize List.replicate 8192 (none : Cell) = buf at hb ⊢
  obtain ⟨h1, h2, h3, h4, h5⟩ := open_ready (F.fresh : F Cell) 0 .both true true (src.map some) (by simp; omega) _ ho1
  obtain ⟨k1, k2, k3, k4, k5⟩ := open_ready (F.fresh : F Cell) 1 .none true true old ho _ ho2
  have hok := ok_of_ready h1
  have hd := ok_of_ready k1
  rw [h2, h3] at hok
  rw [k2, k3] at hd
  obtain ⟨f', d', W, e, g1, g2, g3⟩ := copyLoop_ok (src.map some) old (by simpa using hs) ho fuel 0 f0 d0 [] buf
    hok (by rw [h4]; rfl) (by simpa [overwrite] using hd) (by rw [k5]; rfl) hb (by simpa using hf) (by intro j hj; omega)
    (by simp) (by simp)
  rw [e, ok_bind]
  dsimp only
  have hdat := g1.data
  have hcur := g1.curr
  dsimp only at hdat hcur
  rw [hdat, hcur]
  have hW : truncate (overwrite old 0 W) W.length = W := by
    unfold truncate overwrite
    rw [List.take_zero, List.nil_append, List.take_left]
    simp
  rw [hW]
  rw [List.length_map] at g2 g3
  exact ⟨W, rfl, g2, g3⟩

/-- C49 (partial).  A source whose length is a multiple of 8192 is copied exactly.  Missing: all other
lengths (`copy_wrong`), and reads that fail or are cut short. -/
theorem copy_exact_partial (src : List UInt8) (old : List Cell) (hs : src.length + 8192 < 2 ^ 63)
    (ho : old.length < 2 ^ 63) (fuel : Nat) (hf : src.length < fuel) (h : 8192 ∣ src.length) :
    copy (src.map some) old [] [] fuel = .ok (src.map some) := by
  obtain ⟨r, h1, h2, h3⟩ := copy_does src old hs ho fuel hf
  obtain ⟨k, hk⟩ := h
  have : r.length = src.length := by omega
  rw [List.take_of_length_le (by omega)] at h3
  rw [h1, h3]

example : 8192 ∣ (List.replicate 16384 (7 : UInt8)).length := ⟨2, List.length_replicate⟩

/-- Negation of C49: no other file is copied exactly. -/
theorem copy_wrong (src : List UInt8) (old : List Cell) (hs : src.length + 8192 < 2 ^ 63)
    (ho : old.length < 2 ^ 63) (fuel : Nat) (hf : src.length < fuel) (h : ¬ 8192 ∣ src.length) :
    copy (src.map some) old [] [] fuel ≠ .ok (src.map some) := by
  obtain ⟨r, h1, h2, h3⟩ := copy_does src old hs ho fuel hf
  rw [h1]
  intro e
  cases e
  rw [List.length_map] at h2
  exact h ⟨(src.length + 8191) / 8192, by omega⟩

example : ¬ 8192 ∣ ([1, 2, 3] : List UInt8).length := by decide

/-! ## C50 -/

/-- The block `p` is allocated and has these contents. -/
def HasBlock (h : BHeap Cell) (p : Nat) (c : List Cell) : Prop := h[p]? = some (some c)

/-- C50.  For every file and everything the kernel does, `LoadEntireFile` either returns true and a new
block with exactly the bytes of the file and their number, or returns false, NULL and 0; apart from
that block, nothing is allocated or freed. -/
theorem load_entire (h : BHeap Cell) (file : Option (List UInt8)) (nameOk lockOk : Bool) (o : List Sys)
    (hf : ∀ data, file = some data → data.length < 2 ^ 63) :
    ∃ r h', loadEntire h file nameOk lockOk o = .ok (r, h') ∧
      ((r = (false, none, 0) ∧ ∀ q c, HasBlock h' q c ↔ HasBlock h q c) ∨
       (∃ p data, r = (true, some p, data.length) ∧ file = some data ∧ (∀ c, ¬ HasBlock h p c) ∧
          HasBlock h' p (data.map some) ∧ ∀ q c, q ≠ p → (HasBlock h' q c ↔ HasBlock h q c))) := by
  unfold loadEntire
  cases hopen : openFile (F.fresh : F UInt8) 0 .both nameOk file lockOk with
  | mk ok f =>
    cases ok with
    | false => exact ⟨_, h, rfl, .inl ⟨rfl, fun _ _ => Iff.rfl⟩⟩
    | true =>
      cases file with
      | none =>
        exfalso
        cases nameOk <;> simp [openFile, setAccess] at hopen
      | some data =>
        obtain ⟨k1, k2, k3, k4, k5⟩ := open_ready F.fresh 0 .both nameOk lockOk data (hf data rfl) f hopen
        have hok := ok_of_ready k1
        rw [k2, k3] at hok
        have hmax : f.max = data.length := hok.max
        have hrd : f.rd = true := by rw [k4]; rfl
        simp only [BHeap.alloc]
        obtain ⟨b, hdoes, _⟩ := read_ok hok hrd f.max o
        have hlt : ∀ (X : List Cell), (h ++ [some X])[h.length]? = some (some X) := by intro X; simp
        have hfree : ∀ (X : List Cell), BHeap.free (h ++ [some X]) h.length = .ok ((h ++ [some X]).set h.length none) :=
          fun X => BHeap.free_ok (hlt X)
        have hsame : ∀ (X : List Cell) q c, HasBlock ((h ++ [some X]).set h.length none) q c ↔ HasBlock h q c := by
          intro X q c
          unfold HasBlock
          rw [List.set_append_right _ _ (Nat.le_refl _), Nat.sub_self]
          rcases Nat.lt_trichotomy q h.length with h1 | h1 | h1
          · rw [List.getElem?_append_left h1]
          · subst h1; simp
          · rw [List.getElem?_eq_none (by simp; omega), List.getElem?_eq_none (by omega)]
        cases hread : read f f.max o with
        | mk res f2 =>
          rw [hread] at hdoes
          dsimp only at hdoes ⊢
          cases res with
          | refused => cases hdoes
          | failed =>
            dsimp only
            rw [hfree, ok_bind]
            exact ⟨_, _, rfl, .inl ⟨rfl, hsame _⟩⟩
          | got bs =>
            dsimp only
            have hbs : ∃ k, bs = data.take k ∧ k ≤ data.length := by
              cases hdoes with
              | read _ _ k hk hb h0 hf => exact ⟨k, by simp, by simpa using hb⟩
            obtain ⟨k, hbs, hk⟩ := hbs
            have hbl : bs.length = k := by rw [hbs]; simp; omega
            rw [BHeap.block_ok (hlt _), ok_bind, memcpyTo_ok _ _ _ _ (by simp) (by simp; omega), ok_bind]
            by_cases hne : f.max ≠ bs.length
            · rw [if_pos hne]
              have e : ∀ Y : List Cell, (h ++ [some (List.replicate f.max none)]).set h.length (some Y) = h ++ [some Y] := by
                intro Y
                rw [List.set_append_right _ _ (Nat.le_refl _), Nat.sub_self]; rfl
              rw [e, hfree, ok_bind]
              exact ⟨_, _, rfl, .inl ⟨rfl, hsame _⟩⟩
            · rw [if_neg hne]
              have hkd : k = data.length := by omega
              have hbd : bs = data := by rw [hbs, hkd, List.take_length]
              refine ⟨_, _, rfl, .inr ⟨h.length, data, by rw [hmax], rfl, ?_, ?_, ?_⟩⟩
              · intro c; unfold HasBlock; simp
              · unfold HasBlock
                rw [List.getElem?_set_self (by simp), hbd, List.take_zero, List.nil_append, Nat.zero_add,
                  List.take_of_length_le (by simp), List.drop_of_length_le (by simp [hmax]), List.append_nil]
              · intro q c hq
                unfold HasBlock
                rw [List.getElem?_set_ne (Ne.symm hq)]
                rcases Nat.lt_or_ge q h.length with h1 | h1
                · rw [List.getElem?_append_left h1]
                · rw [List.getElem?_eq_none (by simp; omega), List.getElem?_eq_none (by omega)]

/-- The evaluation of `LoadEntireFile` when the file opens and everything is read. -/
theorem load_eval (h : BHeap Cell) (data : List UInt8) (hd : data.length < 2 ^ 63) (o : List Sys)
    (ho : ∀ x ∈ o, x = .intr) (nameOk lockOk : Bool) (f : F UInt8)
    (hop : openFile (F.fresh : F UInt8) 0 .both nameOk (some data) lockOk = (true, f)) :
    ∃ h', loadEntire h (some data) nameOk lockOk o = .ok ((true, some h.length, data.length), h') := by
  obtain ⟨k1, k2, k3, k4, k5⟩ := open_ready (F.fresh : F UInt8) 0 .both nameOk lockOk data hd f hop
  have hok := ok_of_ready k1
  rw [k2, k3] at hok
  obtain ⟨b, hdoes, _⟩ := read_ok hok (by rw [k4]; rfl) data.length o
  have hgot : (read f data.length o).1 = .got data := by
    generalize (read f data.length o).1 = res at hdoes
    cases hdoes with
    | readFail _ _ h => have := ho _ h; cases this
    | read _ _ k hk hb h0 hf =>
      have := hf (fun k hk => by have := ho _ hk; cases this)
      subst this
      simp
  have hmax : f.max = data.length := hok.max
  unfold loadEntire
  rw [hop]
  simp only [BHeap.alloc]
  rw [hmax]
  cases hread : read f data.length o with
  | mk res f2 =>
    rw [hread] at hgot
    dsimp only at hgot
    subst hgot
    dsimp only
    rw [BHeap.block_ok (b := List.replicate data.length none) (by simp), ok_bind,
      memcpyTo_ok _ _ _ _ (by simp) (by simp), ok_bind, if_neg (by simp)]
    exact ⟨_, rfl⟩

/-- If the file can be opened and the kernel delivers all bytes at once, it is loaded. -/
theorem load_succeeds (h : BHeap Cell) (data : List UInt8) (hd : data.length < 2 ^ 63) (o : List Sys)
    (ho : ∀ x ∈ o, x = .intr) :
    ∃ p h', loadEntire h (some data) true true o = .ok ((true, some p, data.length), h') ∧
      HasBlock h' p (data.map some) := by
  have g := load_eval h data hd o ho true true _ rfl
  obtain ⟨r, h', e, hr⟩ := load_entire h (some data) true true o (by intro d hd'; cases hd'; exact hd)
  obtain ⟨h2, g⟩ := g
  rw [g] at e
  obtain ⟨e1, e2⟩ := Prod.mk.inj (Except.ok.inj e)
  rcases hr with ⟨h1, _⟩ | ⟨p, d, h1, h3, _, h4, _⟩
  · rw [← e1] at h1
    cases h1
  · cases h3
    rw [← e1] at h1
    obtain ⟨_, h1⟩ := Prod.mk.inj h1
    obtain ⟨h1, _⟩ := Prod.mk.inj h1
    refine ⟨h.length, h2, g, ?_⟩
    rw [e2, Option.some.inj h1]
    exact h4

example : loadEntire [] (some [1, 2]) true true [.intr] = .ok ((true, some 0, 2), [some [some 1, some 2]]) ∧
    loadEntire [] (some [1, 2]) true true [.some 1] = .ok ((false, none, 0), [none]) := by
  constructor <;> decide +kernel

end Verif.File
