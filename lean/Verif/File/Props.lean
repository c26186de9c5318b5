import Verif.File.LineLemmas
import Mathlib.Data.List.Forall2

/-!
# C46, C47, C48, C64: seeking, reading, writing, line input, opening
-/

namespace Verif.File
open Spec

variable {α : Type}

theorem ok_of_ready {f : F α} (h : Ready f) : Ok f ⟨f.data, f.off⟩ :=
  ⟨h.1, rfl, rfl, h.2.1, h.2.2.1, h.2.2.2.1, h.2.2.2.2⟩

theorem ready_of_ok {f : F α} {a : A α} (h : Ok f a) : Ready f ∧ f.data = a.bytes ∧ f.off = a.cur := by
  obtain ⟨h1, h2, h3, h4, h5, h6, h7⟩ := h
  exact ⟨⟨h1, by rw [h4, h3], by rw [h5, h2], by rw [h3, h2]; exact h6, by rw [h2]; exact h7⟩, h2, h3⟩

/-! ## Opening -/

/-- A successful `Open` gives a file in normal use, at its beginning. -/
theorem open_ready (f : F α) (access : Nat) (share : Share) (nameOk lockOk : Bool) (data : List α)
    (hd : data.length < 2 ^ 63) (f' : F α)
    (h : openFile f access share nameOk (some data) lockOk = (true, f')) :
    Ready f' ∧ f'.data = data ∧ f'.off = 0 ∧ f'.rd = decide (access = 0 ∨ access = 2) ∧
      f'.wr = decide (access = 1 ∨ access = 2) := by
  unfold openFile setAccess at h
  have key : ∀ (g : F α) (r w : Bool), (r = decide (access = 0 ∨ access = 2)) → (w = decide (access = 1 ∨ access = 2)) →
      g.rd = r → g.wr = w →
      (if (!nameOk) = true then (false, g) else
        match some data with
        | none => (false, { g with opened := false })
        | some data =>
          if share = .other then (false, { g with opened := true, data := data, off := 0 })
          else if (!lockOk) = true then (false, { g with opened := true, data := data, off := 0 })
          else (true, updateMax { g with opened := true, data := data, off := 0, curr := 0 })) = (true, f') →
      Ready f' ∧ f'.data = data ∧ f'.off = 0 ∧ f'.rd = decide (access = 0 ∨ access = 2) ∧
        f'.wr = decide (access = 1 ∨ access = 2) := by
    intro g r w hr hw h1 h2 h
    dsimp only at h
    repeat' split at h
    · cases h
    · cases h
    · cases h
    · cases h
      exact ⟨⟨rfl, rfl, rfl, Nat.zero_le _, hd⟩, rfl, rfl, by rw [← hr]; exact h1, by rw [← hw]; exact h2⟩
  by_cases h0 : access = 0
  · subst h0
    exact key _ true false rfl rfl rfl rfl h
  · rw [if_neg h0] at h
    by_cases h1 : access = 1
    · subst h1
      exact key _ false true rfl rfl rfl rfl h
    · rw [if_neg h1] at h
      by_cases h2 : access = 2
      · subst h2
        exact key _ true true rfl rfl rfl rfl h
      · rw [if_neg h2] at h
        cases h

example : ∃ f', openFile (F.fresh : F UInt8) 2 .both true (some [1, 2, 3]) true = (true, f') ∧ f'.max = 3 :=
  ⟨_, rfl, rfl⟩

/-- C64 (partial).  After a failed `Open` the object is closed, if the share mode is one of the
enumeration and the file could be locked.  Missing: a file locked by another process
(`open_failed_open`). -/
theorem open_failed_partial (f : F α) (access : Nat) (share : Share) (nameOk : Bool) (file : Option (List α))
    (hs : share ≠ .other) (f' : F α) (h : openFile f access share nameOk file true = (false, f')) :
    f'.opened = false := by
  unfold openFile setAccess at h
  repeat' split at h
  all_goals first
    | (simp only [Prod.mk.injEq] at h; done)
    | skip
  all_goals grind [close]

example : ∃ f', openFile ({ F.fresh with opened := true } : F UInt8) 0 .both true none true = (false, f') ∧
    f'.opened = false := ⟨_, rfl, rfl⟩

/-- Negation of C64: if another process holds a lock, `Open` returns false, but the object is open and
the file can be read and even has the previous file's position. -/
theorem open_failed_open : ∃ f : F UInt8,
    openFile { F.fresh with curr := 7, max := 9 } 0 .both true (some [1, 2, 3]) false = (false, f) ∧
    f.opened = true ∧ f.curr = 7 ∧ (read f 2 []).1 = .got [1, 2] :=
  ⟨_, rfl, rfl, rfl, by decide +kernel⟩

/-- An open file. -/
def sample0 : F UInt8 := { data := [1], off := 0, opened := true, rd := true, wr := true, curr := 0, max := 1 }

/-- **C64**, a closed object: reads, writes and seeks are refused, and nothing changes. -/
theorem closed_refuses (f : F α) (h : f.opened = false) (w : Whence) (pos n : Nat) (o : List Sys) (buf : List α) :
    seek f w pos = (false, f) ∧ read f n o = (.refused, f) ∧ write f buf pos n o = .ok (.refused, f) := by
  simp [seek, read, write, h]

example : (close sample0).opened = false ∧ sample0.opened = true := by decide

/-! ## C46 -/

/-- C46 (partial).  `Seek` on a file in normal use succeeds and leads to the requested position,
clamped to the file; the object stays in normal use.  Missing: `SeekForward` by so much that the sum
wraps (`seek_wraps`). -/
theorem seek_clamps_partial (f : F α) (h : Ready f) (w : Whence) (pos : Nat)
    (hw : w = .forward → f.off + pos < 2 ^ 64) :
    ∃ f', seek f w pos = (true, f') ∧ Ready f' ∧ f'.data = f.data ∧
      f'.curr = clamp f.data.length (target ⟨f.data, f.off⟩ w pos) := by
  obtain ⟨h1, h2⟩ := seek_ok (ok_of_ready h) w pos hw
  obtain ⟨h3, h4, h5⟩ := ready_of_ok h2
  exact ⟨_, by rw [← h1], h3, h4, h2.curr⟩

example : ∃ f : F UInt8, Ready f ∧ f.off = 2 ∧ (seek f .forward 10).2.curr = 5 ∧ (seek f .backward 10).2.curr = 0 ∧
    (seek f .fromEnd 1).2.curr = 4 :=
  ⟨{ data := [1, 2, 3, 4, 5], off := 2, opened := true, rd := true, wr := true, curr := 2, max := 5 },
    ⟨rfl, rfl, rfl, by decide, by decide⟩, rfl, by decide, by decide, by decide⟩

/-- Negation of C46: seeking forward by 2^64 - 1 bytes goes back by one byte. -/
theorem seek_wraps : ∃ f : F UInt8, Ready f ∧ f.off = 2 ∧
    clamp f.data.length (target ⟨f.data, f.off⟩ .forward (2 ^ 64 - 1)) = 5 ∧
    (seek f .forward (2 ^ 64 - 1)).1 = true ∧ (seek f .forward (2 ^ 64 - 1)).2.curr = 1 :=
  ⟨{ data := [1, 2, 3, 4, 5], off := 2, opened := true, rd := true, wr := true, curr := 2, max := 5 },
    ⟨rfl, rfl, rfl, by decide, by decide⟩, rfl, by decide +kernel, by decide +kernel, by decide +kernel⟩

/-! ## C47 -/

/-- What C47 needs: offsets of forward seeks below 2^63, buffers as large as said, and no interrupted or
failing `write`. -/
def Plain : Op α → Prop
  | .seek w pos => w = .forward → pos < 2 ^ 63
  | .read _ _ => True
  | .write buf pos size o => pos + size ≤ buf.length ∧ Sys.intr ∉ o ∧ Sys.fail ∉ o

theorem perform_ok (a : A α) : ∀ (ops : List (Op α)) (f : F α) (a : A α), Ok f a → (∀ op ∈ ops, Plain op) →
    a.bytes.length + total ops < 2 ^ 63 →
    ∃ h f' b, performAll f ops = .ok (h, f') ∧ h.map Prod.fst = ops ∧ History f.rd f.wr a h b ∧ Ok f' b ∧ f'.rd = f.rd ∧ f'.wr = f.wr
  | [], f, a, hok, _, _ => ⟨[], f, a, rfl, rfl, .nil a, hok, rfl, rfl⟩
  | op :: ops, f, a, hok, hp, ht => by
    have step : ∃ out f1 b1, perform f op = .ok (out, f1) ∧ Acts f.rd f.wr a op out b1 ∧ Ok f1 b1 ∧
        f1.rd = f.rd ∧ f1.wr = f.wr ∧ b1.bytes.length + total ops < 2 ^ 63 := by
      have hp1 := hp op (List.mem_cons_self ..)
      have hlt := hok.lt
      have hle := hok.le
      cases op with
      | seek w pos =>
        obtain ⟨h1, h2⟩ := seek_ok hok w pos (by intro hw; have := hp1 hw; omega)
        refine ⟨_, _, _, rfl, ?_, h2, ?_, ?_, by simpa [total] using ht⟩
        · rw [h1]; exact .does trivial (.seek w pos)
        · unfold seek; repeat' split
          all_goals rfl
        · unfold seek; repeat' split
          all_goals rfl
      | read n o =>
        by_cases hrd : f.rd = true
        · obtain ⟨b, h1, h2, h3, h4⟩ := read_ok hok hrd n o
          refine ⟨_, _, b, rfl, .does hrd h1, h2, h3, h4, ?_⟩
          have : b.bytes = a.bytes := by
            generalize (Out.read (read f n o).1) = out at h1
            cases h1 <;> rfl
          rw [this]; simpa [total] using ht
        · have hrd : f.rd = false := by simpa using hrd
          refine ⟨.read .refused, f, a, ?_, .refuseRead n o hrd, hok, rfl, rfl, by simpa [total] using ht⟩
          simp [perform, read, hrd]
      | write buf pos size o =>
        obtain ⟨h2, h3, h4⟩ := hp1
        simp only [total] at ht
        by_cases h1 : f.wr = true
        · obtain ⟨f', h5, h6, h7, h8⟩ := write_ok hok h1 buf pos size o h2 (by omega) h3 h4
          refine ⟨_, f', _, by simp only [perform, h5, ok_bind], .does h1 (.write buf pos size o), h6, h7, h8, ?_⟩
          dsimp only
          rw [overwrite_length _ _ _ hle]
          simp
          omega
        · have h1 : f.wr = false := by simpa using h1
          refine ⟨.write .refused, f, a, ?_, .refuseWrite buf pos size o h1, hok, rfl, rfl, by omega⟩
          simp [perform, write, h1]
    obtain ⟨out, f1, b1, e1, hd, hok1, hr, hw, ht1⟩ := step
    obtain ⟨h, f', b, e2, h3, h4, h5, h6, h7⟩ := perform_ok a ops f1 b1 hok1
      (fun op hop => hp op (List.mem_cons_of_mem _ hop)) ht1
    rw [hr, hw] at h4
    refine ⟨(op, out) :: h, f', b, ?_, by simp [h3], .cons hd h4, h5, by rw [h6, hr], by rw [h7, hw]⟩
    rw [performAll, e1, ok_bind]
    dsimp only
    rw [e2, ok_bind]

/-- C47 (partial).  A file in normal use behaves like a byte array with a cursor in every history of
`Seek`, `Read` and `Write`, whatever short transfers there are and however often a `read` is
interrupted or fails; what it was not opened for is refused; there is no undefined behaviour.

Missing: interrupted writes (`write_interrupted_ub`, `write_interrupted_wrong`), writes failing after a
short one (`write_failed_desync`), wrapping forward seeks (C46), and files growing beyond 2^63 bytes. -/
theorem file_array_partial (f : F α) (h : Ready f) (ops : List (Op α)) (hp : ∀ op ∈ ops, Plain op)
    (ht : f.data.length + total ops < 2 ^ 63) :
    ∃ hist f' b, performAll f ops = .ok (hist, f') ∧ hist.map Prod.fst = ops ∧
      History f.rd f.wr ⟨f.data, f.off⟩ hist b ∧ f'.data = b.bytes ∧ f'.curr = b.cur ∧ Ready f' ∧
      f'.rd = f.rd ∧ f'.wr = f.wr := by
  obtain ⟨hist, f', b, h1, h2, h3, h4, h5, h6⟩ := perform_ok ⟨f.data, f.off⟩ ops f _ (ok_of_ready h) hp ht
  exact ⟨hist, f', b, h1, h2, h3, h4.data, h4.curr, (ready_of_ok h4).1, h5, h6⟩

/-- The file used in the examples. -/
def sample : F UInt8 :=
  { data := [1, 2, 3, 4, 5], off := 0, opened := true, rd := true, wr := true, curr := 0, max := 5 }

example : Ready sample ∧ (∀ op ∈ ([.write [9, 8, 7] 1 2 [.some 1], .read 2 [.intr, .some 1], .seek .fromEnd 1,
    .write [6, 6, 6] 0 3 []] : List (Op UInt8)), Plain op) ∧
    (performAll sample [.write [9, 8, 7] 1 2 [.some 1], .read 2 [.intr, .some 1], .seek .fromEnd 1,
      .write [6, 6, 6] 0 3 []]).map (fun x => x.2.data) = .ok [8, 7, 3, 4, 6, 6, 6] := by
  refine ⟨⟨rfl, rfl, rfl, by decide, by decide⟩, ?_, by decide⟩
  intro op hop
  simp only [List.mem_cons, List.not_mem_nil, or_false] at hop
  rcases hop with rfl | rfl | rfl | rfl <;> simp [Plain]

/-- Negation of C47: if the first `write` is interrupted, the data pointer is moved to before the
caller's data. -/
theorem write_interrupted_ub : write sample [8, 7] 0 2 [.intr] = .error .badPtr := by decide +kernel

/-- Negation of C47: the same with data inside a larger array.  The byte before the data is written,
and the object's position is not the kernel's any more. -/
theorem write_interrupted_wrong :
    (write sample [9, 8, 7] 1 2 [.intr]).map (fun x => (x.1, x.2.data, x.2.curr, x.2.off)) =
      .ok (.done 2, [9, 8, 7, 4, 5], 2, 3) := by decide +kernel

/-- Negation of C47: an interruption after a short write writes the byte before again. -/
theorem write_interrupted_twice :
    (write sample [8, 7] 0 2 [.some 1, .intr]).map (fun x => (x.1, x.2.data)) =
      .ok (.done 2, [8, 8, 7, 4, 5]) := by decide +kernel

/-- Negation of C47: a write failing after a short one moves the kernel's position only. -/
theorem write_failed_desync :
    (write sample [8, 7] 0 2 [.some 1, .fail]).map (fun x => (x.1, x.2.data, x.2.curr, x.2.off)) =
      .ok (.failed 1, [8, 2, 3, 4, 5], 0, 1) := by decide +kernel

/-! ## C48 -/

/-- C48 (partial).  With a realloc function given by the caller and complete reads, `LineInput` has no
undefined behaviour and returns the next line, with blanks for NULs, and moves just behind the line's
terminator.

Missing: the default allocator when a line does not fit in the first chunk (`default_overreads`;
otherwise it gives the same, `default_same`), short reads (`short_read_splits`), and a size hint of 0
(`hint_zero`). -/
theorem line_input_partial (f : F UInt8) (h : Ready f) (hr : f.rd = true) (hint : Nat) (hh : 0 < hint)
    (fuel : Nat) (hf : f.data.length < fuel) :
    ∃ b f', lineInput f hint true [] fuel = .ok (some b, f') ∧
      IsString b ((splitLine (f.data.drop f.off)).1.map blank) ∧
      f'.data = f.data ∧ f'.data.drop f'.off = (splitLine (f.data.drop f.off)).2 ∧ Ready f' ∧ f'.rd = true := by
  obtain ⟨b, f', h1, h2, h3, h4, _⟩ := lineInput_ok (ok_of_ready h) hr hint hh fuel (by dsimp only; omega)
  obtain ⟨h5, h6, h7⟩ := ready_of_ok h3
  refine ⟨b, f', h1, ?_, h6, ?_, h5, h4⟩
  · unfold IsString
    rw [List.map_map, List.length_map]
    exact h2
  · rw [h6, h7]
    dsimp only
    obtain ⟨term, e, _⟩ := splitLine_spec (f.data.drop f.off)
    have hl := congrArg List.length e
    simp only [List.length_drop, List.length_append] at hl
    have hle := h.2.2.2.1
    generalize (splitLine (f.data.drop f.off)).1 = line at e hl
    generalize (splitLine (f.data.drop f.off)).2 = rest at e hl ⊢
    rw [show f.data.length - rest.length = f.off + (line.length + term.length) by omega, ← List.drop_drop, e,
      ← List.length_append, List.drop_left]

/-- The loop of a user: all lines until the end of the file. -/
def readLines (hint fuel : Nat) : Nat → F UInt8 → CRes (List (List Cell))
  | 0, _ => .error .diverges
  | n + 1, f =>
    if f.max ≤ f.curr then .ok []
    else do
      let (b, f) ← lineInput f hint true [] fuel
      match b with
      | none => .error .nullDeref
      | some b => do
        let bs ← readLines hint fuel n f
        .ok (b :: bs)

/-- C48 (partial), all calls together: the lines of the file, each byte being consumed once. -/
theorem all_lines_partial (hint : Nat) (hh : 0 < hint) (fuel : Nat) : ∀ (n : Nat) (f : F UInt8), Ready f →
    f.rd = true → f.data.length < fuel → f.data.length - f.off < n →
    ∃ bs, readLines hint fuel n f = .ok bs ∧
      List.Forall₂ (fun b line => IsString b (line.map blank)) bs (lines (f.data.drop f.off))
  | 0, f, _, _, _, hn => by omega
  | n + 1, f, h, hr, hf, hn => by
    unfold readLines
    have h1 := h.2.1
    have h2 := h.2.2.1
    have h3 := h.2.2.2.1
    by_cases hc : f.max ≤ f.curr
    · rw [if_pos hc]
      refine ⟨[], rfl, ?_⟩
      rw [List.drop_of_length_le (by omega), lines]
      exact .nil
    · rw [if_neg hc]
      obtain ⟨b, f', e1, e2, e3, e4, e5, e6⟩ := line_input_partial f h hr hint hh fuel hf
      cases hR : f.data.drop f.off with
      | nil =>
        have := congrArg List.length hR
        simp at this
        omega
      | cons c r =>
        have hsh := splitLine_shorter c r
        rw [hR] at e2 e4
        have hl := congrArg List.length e4
        have hl2 := congrArg List.length hR
        rw [List.length_drop] at hl hl2
        rw [e3] at hl
        obtain ⟨bs, e7, e8⟩ := all_lines_partial hint hh fuel n f' e5 e6 (by rw [e3]; exact hf)
          (by rw [e3]; omega)
        rw [e1, ok_bind]
        dsimp only
        rw [e7, ok_bind]
        refine ⟨_, rfl, ?_⟩
        rw [lines.eq_2, ← e4]
        exact .cons e2 e8

/-- A text with all kinds of line ends. -/
def textFile : F UInt8 :=
  { data := [97, 98, 13, 10, 99, 13, 13, 0, 100, 10, 101], off := 0, opened := true, rd := true, wr := false,
    curr := 0, max := 11 }

example : Ready textFile ∧ lines (textFile.data.drop textFile.off) = [[97, 98], [99], [], [0, 100], [101]] :=
  ⟨⟨rfl, rfl, rfl, by decide, by decide⟩, by simp [textFile, lines, splitLine]⟩

example : (readLines 3 12 12 textFile).map (List.map (fun b => b.takeWhile (· ≠ some 0))) =
    .ok [[some 97, some 98], [some 99], [], [some 32, some 100], [some 101]] := by decide +kernel

/-- The default allocator gives the same, unless its use is undefined. -/
theorem default_same (f : F UInt8) (hint : Nat) (hh : 0 < hint) (os : List (List Sys)) (fuel : Nat)
    (x : Option (List Cell) × F UInt8) (h : lineInput f hint false os fuel = .ok x) :
    lineInput f hint true os fuel = .ok x := lineInput_alt hh h

example : (lineInput textFile 5 false [] 12).map (fun x => x.2.curr) = .ok 4 := by decide +kernel

/-- Negation of C48: with the default allocator, a size hint of at least 2, and no complete line in
the first chunk, the old block is read beyond its end. -/
theorem default_overreads (f : F UInt8) (h : Ready f) (hr : f.rd = true) (hint : Nat) (hh : 2 ≤ hint)
    (hl : hint ≤ f.data.length - f.off)
    (hno : ∀ j, j < hint → (f.data.drop f.off)[j]? ≠ some 10 ∧ (f.data.drop f.off)[j]? ≠ some 13) (fuel : Nat) :
    lineInput f hint false [] (fuel + 2) = .error .oobRead := by
  have hok := ok_of_ready h
  obtain ⟨h1, h2, h3, h4⟩ := read_full hok hr hint
  dsimp only at h1
  generalize hR : f.data.drop f.off = R at h1 hno
  have hRl : R.length = f.data.length - f.off := by rw [← hR]; simp
  have hbl : (R.take hint).length = hint := by simp; omega
  have hgrow : grow false none hint hint = .ok (List.replicate (hint + 1) none) := rfl
  generalize hb2 : (R.take hint).map some ++ [none] = b2
  have hcp : memcpyTo (List.replicate (hint + 1) (none : Cell)) (hint - hint) ((R.take hint).map some) hint = .ok b2 := by
    rw [memcpyTo_ok _ _ _ _ (by simp; omega) (by simp), ← hb2]
    simp only [Nat.sub_self, List.take_zero, List.nil_append, Nat.zero_add, List.drop_replicate,
      Nat.add_sub_cancel_left]
    rw [List.take_of_length_le (by simp; omega)]
    rfl
  have hholds : Holds b2 R hint := by
    intro j hj
    rw [← hb2, List.getElem?_append_left (by simp; omega), List.getElem?_map, List.getElem?_take, if_pos hj]
  obtain ⟨s, e3, hs⟩ := stop_ok b2 R hint hholds (by omega)
  have hsf : s = false := by
    cases s with
    | false => rfl
    | true =>
      rcases hs.mp rfl with ⟨j, h5, h6⟩ | ⟨j, h5, h6⟩
      · exact absurd h6 (hno j h5).1
      · exact absurd h6 (hno j (by omega)).2
  subst hsf
  have hl2 : b2.length = hint + 1 := by rw [← hb2]; simp; omega
  have hloop2 : ∀ g, lineLoop false hint (fuel + 1) [] g (some b2) (hint + hint) = .error .oobRead := by
    intro g
    unfold lineLoop
    have : grow false (some b2) (hint + hint) hint = .error .oobRead := by
      simp only [grow, Bool.false_eq_true, if_false]
      unfold memcpyTo
      rw [if_neg (by omega)]
    rw [this]
    rfl
  unfold lineInput
  rw [h.1, hr]
  simp only [Bool.not_true, Bool.or_false, Bool.false_eq_true, if_false]
  have hloop : lineLoop false hint (fuel + 1 + 1) [] f none hint = .error .oobRead := by
    unfold lineLoop
    rw [hgrow, ok_bind]
    rw [show read f hint (([] : List (List Sys)).headD []) = read f hint [] from rfl]
    dsimp only
    rw [h1]
    simp only [ReadRes.bytes, hbl, List.tail_nil]
    rw [hcp, ok_bind, if_neg (by omega), e3, ok_bind]
    exact hloop2 _
  rw [hloop]
  rfl

example : (lineInput { textFile with data := [97, 98, 99, 100, 10], max := 5 } 2 false [] 12).map (fun x => x.2.curr) =
    .error .oobRead := by decide +kernel

/-- Negation of C48: a short read is taken for the end of the file, and the line is cut in two. -/
theorem short_read_splits :
    (lineInput { textFile with data := [97, 98, 99, 10], max := 4 } 4 true [[.some 1]] 9).map
      (fun x => (x.1, x.2.curr)) = .ok (some [some 97, some 0, none, none, none], 1) := by decide +kernel

/-- Negation of C48: with a size hint of 0, `LineInput` never returns. -/
theorem hint_zero (fuel : Nat) : lineInput textFile 0 true [] fuel = .error .diverges := by
  have hloop : ∀ (fuel : Nat) (blk : Option (List Cell)), (∀ b, blk = some b → b = [none]) →
      lineLoop true 0 fuel [] textFile blk 0 = .error .diverges := by
    intro fuel
    induction fuel with
    | zero => intro blk _; rfl
    | succ n ih =>
      intro blk hb
      have hg : grow true blk 0 0 = .ok [none] := by
        cases blk with
        | none => rfl
        | some b => rw [hb b rfl]; rfl
      unfold lineLoop
      have hrd : read textFile 0 (([] : List (List Sys)).headD []) = (.got [], textFile) := by decide +kernel
      rw [hg, ok_bind, hrd]
      exact ih (some [none]) (by intro b h; cases h; rfl)
  unfold lineInput
  rw [hloop fuel none (by intro b h; cases h)]
  rfl

end Verif.File
