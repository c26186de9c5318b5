import Verif.Path.AbsWhole
import Verif.WinAbs.Model

/-!
# The Windows loops are the POSIX loops with slashes and backslashes exchanged
-/

namespace Verif.WinAbs

open Verif.Path (cstr at_)

/-- Slashes and backslashes exchanged. -/
def swp (c : Nat) : Nat := if c = 47 then 92 else if c = 92 then 47 else c

/-- A string with slashes and backslashes exchanged. -/
def sw (s : List Nat) : List Nat := s.map swp

theorem swp_swp (c : Nat) : swp (swp c) = c := by
  by_cases h : c = 47
  · subst h; rfl
  · by_cases h' : c = 92
    · subst h'; rfl
    · simp [swp, h, h']

theorem swp_inj {a b : Nat} : swp a = swp b ↔ a = b :=
  ⟨fun h => by rw [← swp_swp a, h, swp_swp], fun h => by rw [h]⟩

@[simp] theorem sw_sw (s : List Nat) : sw (sw s) = s := by
  unfold sw
  rw [List.map_map]
  conv => rhs; rw [← List.map_id s]
  exact List.map_congr_left (fun c _ => swp_swp c)

@[simp] theorem sw_len (s : List Nat) : (sw s).length = s.length := by simp [sw]
@[simp] theorem sw_nil : sw [] = [] := rfl
@[simp] theorem sw_append (s t : List Nat) : sw (s ++ t) = sw s ++ sw t := by simp [sw]
@[simp] theorem sw_cons (c : Nat) (s : List Nat) : sw (c :: s) = swp c :: sw s := rfl
theorem sw_take (s : List Nat) (n : Nat) : sw (s.take n) = (sw s).take n := by simp [sw, List.map_take]
theorem sw_drop (s : List Nat) (n : Nat) : sw (s.drop n) = (sw s).drop n := by simp [sw, List.map_drop]
theorem sw_get (s : List Nat) (i : Nat) : (sw s)[i]? = (s[i]?).map swp := by simp [sw]

theorem sw_inj {s t : List Nat} : sw s = sw t ↔ s = t :=
  ⟨fun h => by rw [← sw_sw s, h, sw_sw], fun h => by rw [h]⟩

theorem swp_zero {c : Nat} : swp c = 0 ↔ c = 0 := by
  unfold swp
  split
  · omega
  · split <;> omega

theorem swp_slash {c : Nat} : swp c = 47 ↔ c = 92 := by
  unfold swp
  split
  · omega
  · split <;> omega

theorem swp_back {c : Nat} : swp c = 92 ↔ c = 47 := by
  unfold swp
  split
  · omega
  · split <;> omega

theorem sw_mem {c : Nat} {s : List Nat} : swp c ∈ sw s ↔ c ∈ s := by
  constructor
  · intro h
    obtain ⟨d, hd, e⟩ := List.mem_map.1 h
    rw [swp_inj.1 e] at hd
    exact hd
  · exact fun h => List.mem_map_of_mem h

theorem sw_zero {s : List Nat} : 0 ∉ sw s ↔ 0 ∉ s := not_congr (sw_mem (c := 0))
theorem sw_slash {s : List Nat} : 47 ∉ sw s ↔ 92 ∉ s := not_congr (sw_mem (c := 92))

theorem rd_sw (b : List Nat) (i : Nat) : rd (sw b) i = (rd b i).map swp := by
  unfold rd
  rw [sw_get]
  cases b[i]? <;> rfl

theorem rd_sw' (b : List Nat) (i : Nat) : rd b i = (rd (sw b) i).map swp := by
  rw [rd_sw]
  cases rd b i with
  | error e => rfl
  | ok c => simp [Except.map, swp_swp]

theorem wr_sw' (b : List Nat) (i v : Nat) : wr b i v = (wr (sw b) i (swp v)).map sw := by
  unfold wr
  rw [sw_len]
  split
  · simp only [Except.map]
    congr 1
    rw [← sw_inj, sw_sw]
    simp [sw]
  · rfl

theorem at_sw (b : List Nat) : ∀ (p : List Nat) (i : Nat), at_ b i p = at_ (sw b) i (sw p)
  | [], i => rfl
  | c :: p, i => by
    rw [sw_cons, at_, at_, rd_sw]
    cases rd b i with
    | error e => rfl
    | ok d =>
      simp only [Except.map, ok_bind, swp_inj]
      rw [at_sw b p (i + 1)]

theorem cstr_sw : ∀ b : List Nat, cstr b = (cstr (sw b)).map sw
  | [] => rfl
  | c :: b => by
    rw [sw_cons, cstr, cstr]
    simp only [swp_zero]
    split
    · rfl
    · rw [cstr_sw b]
      cases cstr (sw b) with
      | error e => rfl
      | ok s => simp [Except.map, swp_swp]

/-- The result of a loop on the exchanged buffer, exchanged back. -/
abbrev back {β : Type} (p : β × List Nat) : β × List Nat := (p.1, sw p.2)

theorem skipDot_sw (b : List Nat) : ∀ (k x : Nat), skipDot b k x = Path.skipDot (sw b) k x
  | 0, x => rfl
  | k + 1, x => by
    rw [skipDot, Path.skipDot, at_sw]
    show (at_ (sw b) x [47, 46, 47] >>= _) = _
    cases at_ (sw b) x [47, 46, 47] with
    | error e => rfl
    | ok m =>
      simp only [ok_bind]
      rw [skipDot_sw b k (x + 2)]

theorem dotLoop_sw (y : Nat) : ∀ (k x x2 : Nat) (b : List Nat),
    dotLoop y k x x2 b = (Path.dotLoop y k x x2 (sw b)).map back
  | 0, x, x2, b => rfl
  | k + 1, x, x2, b => by
    rw [dotLoop, Path.dotLoop, skipDot_sw, sw_len]
    split
    · cases Path.skipDot (sw b) (b.length + 1) x with
      | error e => rfl
      | ok x' =>
        simp only [ok_bind]
        rw [rd_sw]
        cases rd b x' with
        | error e => rfl
        | ok c =>
          simp only [Except.map, ok_bind]
          rw [wr_sw' b x2 c]
          cases wr (sw b) x2 (swp c) with
          | error e => rfl
          | ok b' =>
            simp only [Except.map, ok_bind]
            rw [at_sw, sw_sw]
            show (at_ b' x' [47, 46, 0] >>= _) = _
            cases at_ b' x' [47, 46, 0] with
            | error e => rfl
            | ok m =>
              simp only [ok_bind]
              split
              · rfl
              · rw [dotLoop_sw y k (x' + 1) (x2 + 1) (sw b'), sw_sw]
                rfl
    · simp [Except.map]

theorem endsDotDot_sw (x2 : Nat) (b : List Nat) : endsDotDot x2 b = Path.endsDotDot x2 (sw b) := by
  unfold endsDotDot Path.endsDotDot
  rw [at_sw]
  rfl

theorem dotName_sw (b : List Nat) : dotName b = (Path.dotName (sw b)).map back := by
  unfold dotName Path.dotName
  rw [cstr_sw, sw_len]
  cases cstr (sw b) with
  | error e => rfl
  | ok s =>
    simp only [Except.map, ok_bind, sw_len]
    rw [dotLoop_sw]
    cases Path.dotLoop s.length (b.length + 1) 0 0 (sw b) with
    | error e => rfl
    | ok p =>
      obtain ⟨x2, b'⟩ := p
      simp only [Except.map, ok_bind]
      rw [endsDotDot_sw, sw_sw]
      cases Path.endsDotDot x2 b' with
      | error e => rfl
      | ok e =>
        simp only [ok_bind]
        split
        · split
          · rfl
          · rw [wr_sw', sw_sw]
            show (Except.map sw (wr b' x2 47) >>= _) = _
            cases wr b' x2 47 with
            | error e => rfl
            | ok b1 =>
              simp only [Except.map, ok_bind]
              rw [wr_sw', sw_sw]
              show (Except.map sw (wr b1 (x2 + 1) 0) >>= _) = _
              cases wr b1 (x2 + 1) 0 <;> rfl
        · rw [wr_sw', sw_sw]
          show (Except.map sw (wr b' x2 0) >>= _) = _
          cases wr b' x2 0 <;> rfl

/-! ## The loops behind a volume -/

theorem rd_right (V b : List Nat) (i : Nat) : rd (V ++ b) (V.length + i) = rd b i := by
  unfold rd
  rw [List.getElem?_append_right (by omega), Nat.add_sub_cancel_left]

theorem wr_right (V b : List Nat) (i v : Nat) : wr (V ++ b) (V.length + i) v = (wr b i v).map (V ++ ·) := by
  unfold wr
  rw [List.length_append]
  by_cases h : i < b.length
  · rw [if_pos (by omega), if_pos h]
    simp only [Except.map]
    rw [List.set_append_right _ _ (by omega), Nat.add_sub_cancel_left]
  · rw [if_neg (by omega), if_neg h]
    rfl

theorem popSlashes_sw (V b : List Nat) : ∀ n, popSlashes (V ++ b) V.length n = Path.popSlashes (sw b) n
  | 0 => rfl
  | n + 1 => by
    rw [popSlashes, Path.popSlashes, rd_right, rd_sw]
    cases rd b n with
    | error e => rfl
    | ok c =>
      simp only [Except.map, ok_bind, swp_slash]
      rw [popSlashes_sw V b n]

theorem popName_sw (V b : List Nat) : ∀ n, popName (V ++ b) V.length n = Path.popName (sw b) n
  | 0 => rfl
  | n + 1 => by
    rw [popName, Path.popName, rd_right, rd_sw]
    cases rd b n with
    | error e => rfl
    | ok c =>
      simp only [Except.map, ok_bind, swp_slash, ne_eq]
      rw [popName_sw V b n]

theorem popLoop_sw (f3 V b : List Nat) : ∀ (k x n : Nat),
    popLoop f3 (V ++ b) V.length k x (V.length + n) = (Path.popLoop (sw f3) (sw b) k x n).map (fun p => (p.1, V.length + p.2))
  | 0, x, n => rfl
  | k + 1, x, n => by
    rw [popLoop, Path.popLoop, at_sw]
    show (at_ (sw f3) x [47, 46, 46, 47] >>= _) = _
    cases at_ (sw f3) x [47, 46, 46, 47] with
    | error e => rfl
    | ok m =>
      simp only [ok_bind]
      split
      · rw [Nat.add_sub_cancel_left, popSlashes_sw]
        cases Path.popSlashes (sw b) n with
        | error e => rfl
        | ok d =>
          simp only [ok_bind]
          rw [popName_sw]
          cases Path.popName (sw b) d with
          | error e => rfl
          | ok d' =>
            simp only [ok_bind]
            exact popLoop_sw f3 V b k (x + 3) d'
      · rfl

theorem nameLoop_sw (f3 V : List Nat) (y : Nat) (hV : V.length ≤ 8191) : ∀ (k x n : Nat) (b : List Nat),
    nameLoop f3 V.length y k x (V.length + n) (V ++ b) =
      (Path.nameLoop (8191 - V.length) (sw f3) y k x n (sw b)).map (Option.map (fun p => (V.length + p.1, V ++ sw p.2)))
  | 0, x, n, b => rfl
  | k + 1, x, n, b => by
    rw [nameLoop, Path.nameLoop, sw_len]
    split
    · rw [popLoop_sw]
      cases Path.popLoop (sw f3) (sw b) (f3.length + 1) x n with
      | error e => rfl
      | ok p =>
        obtain ⟨x', n'⟩ := p
        simp only [Except.map, ok_bind]
        by_cases hn : n' ≥ 8191 - V.length
        · rw [if_pos (by omega), if_pos hn]
          rfl
        · rw [if_neg (by omega), if_neg hn, rd_sw' f3]
          cases rd (sw f3) x' with
          | error e => rfl
          | ok c =>
            simp only [Except.map, ok_bind]
            rw [wr_right, wr_sw', swp_swp]
            cases wr (sw b) n' c with
            | error e => rfl
            | ok b' =>
              simp only [Except.map, ok_bind]
              have := nameLoop_sw f3 V y hV k (x' + 1) (n' + 1) (sw b')
              rw [sw_sw] at this
              exact this
    · simp [Except.map]

theorem skipSlash_sw (b : List Nat) : ∀ (k x : Nat), skipSlash b k x = Path.skipSlash (sw b) k x
  | 0, x => rfl
  | k + 1, x => by
    rw [skipSlash, Path.skipSlash, at_sw]
    show (at_ (sw b) x [47, 47] >>= _) = _
    cases at_ (sw b) x [47, 47] with
    | error e => rfl
    | ok m =>
      simp only [ok_bind]
      rw [skipSlash_sw b k (x + 1)]

theorem outLoop_sw (b : List Nat) (n size : Nat) : ∀ (k x x2 : Nat) (r : List Nat),
    outLoop b n size k x x2 r = (Path.outLoop (sw b) n size k x x2 (sw r)).map back
  | 0, x, x2, r => rfl
  | k + 1, x, x2, r => by
    rw [outLoop, Path.outLoop, skipSlash_sw, sw_len]
    split
    · cases Path.skipSlash (sw b) (b.length + 1) x with
      | error e => rfl
      | ok x' =>
        simp only [ok_bind]
        rw [rd_sw]
        cases rd b x' with
        | error e => rfl
        | ok c =>
          simp only [Except.map, ok_bind]
          rw [wr_sw' r]
          cases wr (sw r) x2 (swp c) with
          | error e => rfl
          | ok r' =>
            simp only [Except.map, ok_bind]
            rw [outLoop_sw b n size k (x' + 1) (x2 + 1) (sw r'), sw_sw]
            rfl
    · simp [Except.map]

theorem lastIs_sw (r : List Nat) (x2 : Nat) : lastIs r x2 = Path.lastIs (sw r) x2 := by
  unfold lastIs Path.lastIs
  rw [rd_sw]
  cases rd r (x2 - 1) with
  | error e => rfl
  | ok c => simp only [Except.map, ok_bind, swp_slash]

theorem saneLoop_sw (r : List Nat) : ∀ (k x : Nat), saneLoop r k x = Path.saneLoop (sw r) k x
  | 0, x => rfl
  | k + 1, x => by
    rw [saneLoop, Path.saneLoop, at_sw]
    show (at_ (sw r) x [47, 46, 47] >>= _) = _
    cases at_ (sw r) x [47, 46, 47] with
    | error e => rfl
    | ok a =>
      simp only [ok_bind]
      rw [at_sw, saneLoop_sw r k (x + 1)]
      rfl

theorem absEnd_sw (trailing : Bool) (size x2 : Nat) (r : List Nat) :
    absEnd trailing size x2 r = (Path.absEnd trailing size x2 (sw r)).map back := by
  have key : ∀ (x2 : Nat) (r : List Nat), (do
      let last ← lastIs r x2
      let x2 := if !trailing && last then x2 - 1 else x2
      if x2 ≥ size then .ok (false, r)
      else do
        let r ← wr r x2 0
        let ok ← saneLoop r x2 0
        .ok (ok, r) : CRes (Bool × List Nat)) = Except.map back (do
      let last ← Path.lastIs (sw r) x2
      let x2 := if !trailing && last then x2 - 1 else x2
      if x2 ≥ size then .ok (false, sw r)
      else do
        let r ← wr (sw r) x2 0
        let ok ← Path.saneLoop r x2 0
        .ok (ok, r) : CRes (Bool × List Nat)) := by
    intro x2 r
    rw [lastIs_sw]
    cases Path.lastIs (sw r) x2 with
    | error e => rfl
    | ok l =>
      simp only [ok_bind]
      generalize (if (!trailing && l) = true then x2 - 1 else x2) = z
      split
      · simp [Except.map]
      · rw [wr_sw']
        show (Except.map sw (wr (sw r) z 0) >>= _) = _
        cases wr (sw r) z 0 with
        | error e => rfl
        | ok r' =>
          simp only [Except.map, ok_bind]
          rw [saneLoop_sw, sw_sw]
          cases Path.saneLoop r' z 0 <;> rfl
  unfold absEnd Path.absEnd
  rw [lastIs_sw]
  cases Path.lastIs (sw r) x2 with
  | error e => rfl
  | ok l =>
    simp only [ok_bind]
    split
    · rw [wr_sw']
      show ((Except.map sw (wr (sw r) x2 47) >>= _) >>= _) = _
      cases wr (sw r) x2 47 with
      | error e => rfl
      | ok r' =>
        simp only [Except.map, ok_bind]
        have := key (x2 + 1) (sw r')
        rw [sw_sw] at this
        exact this
    · simp only [ok_bind]
      exact key x2 r

theorem slashBase_sw (b : List Nat) : slashBase b = (Path.slashBase (sw b)).map back := by
  unfold slashBase Path.slashBase
  rw [cstr_sw]
  cases cstr (sw b) with
  | error e => rfl
  | ok s =>
    simp only [Except.map, ok_bind, sw_len]
    rw [lastIs_sw]
    cases Path.lastIs (sw b) s.length with
    | error e => rfl
    | ok l =>
      simp only [ok_bind]
      split
      · split
        · simp
        · rw [wr_sw']
          show (Except.map sw (wr (sw b) s.length 47) >>= _) = _
          cases wr (sw b) s.length 47 with
          | error e => rfl
          | ok b1 =>
            simp only [Except.map, ok_bind]
            rw [wr_sw', sw_sw]
            show (Except.map sw (wr b1 (s.length + 1) 0) >>= _) = _
            cases wr b1 (s.length + 1) 0 <;> rfl
      · simp

end Verif.WinAbs
