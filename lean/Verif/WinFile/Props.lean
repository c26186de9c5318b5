import Verif.File.Lemmas
import Verif.File.Props
import Verif.WinFile.Spec

/-!
# C86, C87: files on Windows
-/

namespace Verif.WinFile

open Verif.File (F Whence Share ReadRes WriteRes sub64 seekTarget setAccess close Ok sub64_ok ok_of_ready ready_of_ok)
open Verif.File.Spec (A target clamp overwrite Ready)
open Spec

variable {α : Type}

/-! ## C86 -/

theorem seek_ok {f : F α} {a : A α} (h : Ok f a) (w : Whence) (pos : Nat) (ok : Bool)
    (hw : w = .forward → a.cur + pos < 2 ^ 64) :
    ∃ b, Does f.rd f.wr a (.seek w pos ok) (.seek (seek f w pos ok).1) b ∧ Ok (seek f w pos ok).2 b ∧
      b.bytes = a.bytes ∧ (seek f w pos ok).2.rd = f.rd ∧ (seek f w pos ok).2.wr = f.wr := by
  cases ok with
  | false =>
    have : seek f w pos false = (false, f) := by
      unfold seek
      rw [h.op]
      simp
    rw [this]
    exact ⟨a, .seekFail w pos, h, rfl, rfl, rfl⟩
  | true =>
    have e : seek f w pos true = File.seek f w pos := by
      unfold seek File.seek
      simp
    obtain ⟨h1, h2⟩ := File.seek_ok h w pos hw
    rw [e, h1]
    refine ⟨_, .seek w pos, h2, rfl, ?_⟩
    unfold File.seek
    split
    · exact ⟨rfl, rfl⟩
    · split <;> exact ⟨rfl, rfl⟩

theorem readUpdate_ok {f : F α} {a : A α} (h : Ok f a) (n : Nat) : readUpdate f n true = f := by
  have := File.readUpdate_ok h n
  unfold File.readUpdate File.updateMax at this
  unfold readUpdate updateMax
  simpa using this

theorem gotBytes_eq (f : F α) (n : Nat) : gotBytes f n = File.gotBytes f n := rfl

theorem read_ok {f : F α} {a : A α} (h : Ok f a) (n : Nat) (o : Sys) (hn : min n (a.bytes.length - a.cur) < 2 ^ 32) :
    ∃ b, Does f.rd f.wr a (.read n true o) (.read (read f n true o).1) b ∧ Ok (read f n true o).2 b ∧
      b.bytes = a.bytes ∧ (read f n true o).2.rd = f.rd ∧ (read f n true o).2.wr = f.wr := by
  unfold read
  rw [h.op, readUpdate_ok h]
  cases hr : f.rd with
  | false => exact ⟨a, .readRefuse n true o rfl, h, rfl, hr, rfl⟩
  | true =>
    simp only [Bool.not_true, Bool.or_false, Bool.false_eq_true, if_false]
    have hsz : readSize f n = min n (a.bytes.length - a.cur) := by
      unfold readSize
      rw [sub64_ok h]
      split <;> omega
    have hle := h.le
    rw [hsz]
    by_cases h0 : min n (a.bytes.length - a.cur) = 0
    · rw [if_pos h0]
      have := Does.read (a := a) (rd := true) (wr := f.wr) n true o 0 rfl (by omega) (by omega) (by omega) (fun _ => h0.symm)
      exact ⟨a, by simpa using this, h, rfl, hr, rfl⟩
    · rw [if_neg h0]
      generalize hm : min n (a.bytes.length - a.cur) = m at h0 hn
      have key : ∀ k, 0 < k → k ≤ m → (o = .all → k = m) →
          ∃ b, Does true f.wr a (.read n true o) (.read (gotBytes f k).1) b ∧ Ok (gotBytes f k).2 b ∧
            b.bytes = a.bytes ∧ (gotBytes f k).2.rd = true ∧ (gotBytes f k).2.wr = f.wr := by
        intro k hk0 hk hall
        rw [gotBytes_eq]
        obtain ⟨h1, h2⟩ := File.gotBytes_ok h k (by omega)
        rw [h1]
        exact ⟨_, .read n true o k rfl (by omega) (by omega) (by omega) (fun ho => by rw [hall ho, hm]), h2, rfl, hr, rfl⟩
      unfold sysRead
      cases o with
      | all =>
        simp only [Nat.mod_eq_of_lt hn]
        exact key m (by omega) (Nat.le_refl _) (fun _ => rfl)
      | fail => exact ⟨a, .readFail n true rfl, h, rfl, hr, rfl⟩
      | some k =>
        simp only [Nat.mod_eq_of_lt hn]
        exact key _ (by omega) (by omega) (fun e => nomatch e)

theorem write_ok {f : F α} {a : A α} (h : Ok f a) (buf : List α) (pos size : Nat) (o : Sys)
    (hb : pos + size ≤ buf.length) (hs : size < 2 ^ 32) (ht : a.bytes.length + size < 2 ^ 63) :
    ∃ r f' b, write f buf pos size o = .ok (r, f') ∧ Does f.rd f.wr a (.write buf pos size o) (.write r) b ∧ Ok f' b ∧
      b.bytes.length ≤ a.bytes.length + size ∧ f'.rd = f.rd ∧ f'.wr = f.wr := by
  unfold write
  rw [h.op]
  have hle := h.le
  cases hw : f.wr with
  | false => exact ⟨_, f, a, rfl, .writeRefuse buf pos size o rfl, h, by omega, rfl, hw⟩
  | true =>
    simp only [Bool.not_true, Bool.or_false, Bool.false_eq_true, if_false]
    have hself : overwrite a.bytes a.cur ([] : List α) = a.bytes := by
      unfold overwrite
      simp
    by_cases h0 : size = 0
    · rw [if_pos h0]
      have := Does.write (a := a) (rd := f.rd) (wr := true) buf pos size o 0 rfl (by omega) (fun _ => h0.symm)
      rw [List.take_zero, hself] at this
      exact ⟨_, f, a, rfl, this, h, by omega, rfl, hw⟩
    · rw [if_neg h0]
      have key : ∀ k, k ≤ size → (o = .all → k = size) →
          ∃ r f' b, sysWrite f buf pos k = .ok (r, f') ∧ Does f.rd true a (.write buf pos size o) (.write r) b ∧ Ok f' b ∧
            b.bytes.length ≤ a.bytes.length + size ∧ f'.rd = f.rd ∧ f'.wr = true := by
        intro k hk hall
        unfold sysWrite
        have hoff : f.off = a.cur := h.off
        rw [if_pos (by omega), if_pos (by omega)]
        have hlen : ((buf.drop pos).take k).length = k := by simp; omega
        have hbl : (overwrite a.bytes a.cur ((buf.drop pos).take k)).length = max a.bytes.length (a.cur + k) := by
          unfold overwrite
          simp
          omega
        refine ⟨_, _, _, rfl, .write buf pos size o k rfl hk hall, ?_, by dsimp only; omega, rfl, hw⟩
        have hc : (a.cur + k) % 2 ^ 64 = a.cur + k := Nat.mod_eq_of_lt (by omega)
        have hcurr := h.curr
        have hmax := h.max
        have hdata := h.data
        refine ⟨?_, ?_, ?_, ?_, ?_, ?_, ?_⟩
        · exact h.op
        · show f.data.take f.off ++ _ ++ f.data.drop (f.off + _) = _
          rw [hdata, hoff]
          rfl
        · show f.off + _ = a.cur + k
          rw [hoff, hlen]
        · show (f.curr + k) % 2 ^ 64 = a.cur + k
          rw [hcurr, hc]
        · show (if (f.curr + k) % 2 ^ 64 > f.max then _ else _) = _
          rw [show (store f ((buf.drop pos).take k)).curr = f.curr from rfl, hcurr, hc, hbl, hmax,
            show (store f ((buf.drop pos).take k)).max = f.max from rfl, hmax]
          split <;> omega
        · dsimp only
          omega
        · dsimp only
          omega
      cases o with
      | all =>
        simp only [Nat.mod_eq_of_lt hs]
        exact key size (Nat.le_refl _) (fun _ => rfl)
      | fail => exact ⟨_, f, a, rfl, .writeFail buf pos size rfl, h, by omega, rfl, hw⟩
      | some k =>
        simp only [Nat.mod_eq_of_lt hs]
        exact key _ (by omega) (fun e => nomatch e)

theorem perform_ok : ∀ (ops : List (Op α)) (f : F α) (a : A α), Ok f a → (∀ op ∈ ops, Plain op) →
    a.bytes.length + total ops < 2 ^ 63 →
    ∃ h f' b, performAll f ops = .ok (h, f') ∧ h.map Prod.fst = ops ∧ History f.rd f.wr a h b ∧ Ok f' b ∧ f'.rd = f.rd ∧ f'.wr = f.wr
  | [], f, a, hok, _, _ => ⟨[], f, a, rfl, rfl, .nil a, hok, rfl, rfl⟩
  | op :: ops, f, a, hok, hp, ht => by
    have step : ∃ out f1 b1, perform f op = .ok (out, f1) ∧ Does f.rd f.wr a op out b1 ∧ Ok f1 b1 ∧
        f1.rd = f.rd ∧ f1.wr = f.wr ∧ b1.bytes.length + total ops < 2 ^ 63 := by
      have hp1 := hp op (List.mem_cons_self ..)
      have hlt := hok.lt
      have hle := hok.le
      cases op with
      | seek w pos ok =>
        obtain ⟨b, h1, h2, h3, h4, h5⟩ := seek_ok hok w pos ok (fun hw => by have := hp1 hw; omega)
        exact ⟨_, _, b, rfl, h1, h2, h4, h5, by rw [h3]; simpa [total] using ht⟩
      | read n s o =>
        obtain ⟨hn, rfl⟩ := hp1
        obtain ⟨b, h1, h2, h3, h4, h5⟩ := read_ok hok n o (by omega)
        exact ⟨_, _, b, rfl, h1, h2, h4, h5, by rw [h3]; simpa [total] using ht⟩
      | write buf pos size o =>
        simp only [total] at ht
        obtain ⟨r, f', b, h1, h2, h3, h4, h5, h6⟩ := write_ok hok buf pos size o hp1.1 hp1.2 (by omega)
        exact ⟨_, _, b, by show (do let (r, f) ← write f buf pos size o; _) = _; rw [h1]; rfl, h2, h3, h5, h6, by omega⟩
    obtain ⟨out, f1, b1, h1, h2, h3, h4, h5, h6⟩ := step
    obtain ⟨h, f', b, k1, k2, k3, k4, k5, k6⟩ := perform_ok ops f1 b1 h3 (fun op hop => hp op (List.mem_cons_of_mem _ hop)) h6
    rw [h4, h5] at k3
    refine ⟨(op, out) :: h, f', b, ?_, by simp [k2], .cons h2 k3, k4, k5.trans h4, k6.trans h5⟩
    rw [performAll, h1, ok_bind]
    dsimp only
    rw [k1]
    rfl

/-- C86 (partial).  Any history of seeks, reads and writes, whatever the system does, is one of a byte array with
cursor.  Missing: transfers of 4 GiB or more (`win_read_large`, `win_write_large`), a system that cannot
tell the size of the file (`win_size_unknown`), and forward seeks of 2^63 or more (`win_seek_wraps`). -/
theorem win_file_array_partial (f : F α) (h : Ready f) (ops : List (Op α)) (hp : ∀ op ∈ ops, Plain op)
    (ht : f.data.length + total ops < 2 ^ 63) :
    ∃ hist f' b, performAll f ops = .ok (hist, f') ∧ hist.map Prod.fst = ops ∧
      History f.rd f.wr ⟨f.data, f.off⟩ hist b ∧ f'.data = b.bytes ∧ f'.curr = b.cur ∧ Ready f' ∧
      f'.rd = f.rd ∧ f'.wr = f.wr := by
  obtain ⟨hist, f', b, h1, h2, h3, h4, h5, h6⟩ := perform_ok ops f _ (ok_of_ready h) hp ht
  exact ⟨hist, f', b, h1, h2, h3, h4.data, h4.curr, (ready_of_ok h4).1, h5, h6⟩

/-- The file used in the examples. -/
def sample : F UInt8 :=
  { data := [1, 2, 3, 4, 5], off := 0, opened := true, rd := true, wr := true, curr := 0, max := 5 }

example : Ready sample ∧ (∀ op ∈ ([.write [9, 8, 7] 1 2 (.some 1), .read 2 true .all, .seek .fromEnd 1 true,
    .read 1 true .fail, .write [6, 6, 6] 0 3 .all] : List (Op UInt8)), Plain op) ∧
    (performAll sample [.write [9, 8, 7] 1 2 (.some 1), .read 2 true .all, .seek .fromEnd 1 true, .read 1 true .fail,
      .write [6, 6, 6] 0 3 .all]).map (fun x => x.2.data) = .ok [8, 2, 3, 4, 6, 6, 6] := by
  refine ⟨⟨rfl, rfl, rfl, by decide, by decide⟩, ?_, by decide +kernel⟩
  intro op hop
  simp only [List.mem_cons, List.not_mem_nil, or_false] at hop
  rcases hop with rfl | rfl | rfl | rfl | rfl <;> simp [Plain]

/-- Negation: a read of a multiple of 4 GiB delivers nothing, as at the end of the file, although the file has that many
bytes. -/
theorem win_read_large (f : F α) (h : Ready f) (hr : f.rd = true) (n : Nat) (h0 : 0 < n) (hn : n ≤ f.data.length - f.off)
    (hd : 2 ^ 32 ∣ n) : read f n true .all = (.got [], f) := by
  have hok := ok_of_ready h
  unfold read
  rw [hok.op, readUpdate_ok hok, hr]
  simp only [Bool.not_true, Bool.or_false, Bool.false_eq_true, if_false]
  have hsz : readSize f n = n := by
    unfold readSize
    rw [sub64_ok hok, if_neg (by dsimp only; omega)]
  rw [hsz, if_neg (by omega), sysRead, Nat.mod_eq_zero_of_dvd hd]
  have hc : f.curr % 2 ^ 64 = f.curr := Nat.mod_eq_of_lt (by
    have := h.2.1; have := h.2.2.2.1; have := h.2.2.2.2; omega)
  have ho := h.1
  cases f with
  | mk d o op r w c m =>
    simp only at hc
    simp [gotBytes, hc]

/-- A file of 4 GiB. -/
example : ∃ f : F UInt8, Ready f ∧ f.rd = true ∧ 2 ^ 32 ≤ f.data.length - f.off :=
  ⟨{ data := List.replicate (2 ^ 32) 0, off := 0, opened := true, rd := true, wr := true, curr := 0, max := 2 ^ 32 },
    ⟨rfl, rfl, by rw [List.length_replicate], Nat.zero_le _, by rw [List.length_replicate]; decide⟩, rfl,
    by rw [List.length_replicate]; decide⟩

/-- Negation: a write of a multiple of 4 GiB writes nothing and returns true. -/
theorem win_write_large (f : F α) (h : Ready f) (hw : f.wr = true) (buf : List α) (pos size : Nat) (h0 : 0 < size)
    (hb : pos + size ≤ buf.length) (hd : 2 ^ 32 ∣ size) :
    ∃ f', write f buf pos size .all = .ok (.done 0, f') ∧ f'.data = f.data ∧ f'.off = f.off := by
  have hle := h.2.2.2.1
  have hlt := h.2.2.2.2
  unfold write
  rw [h.1, hw]
  simp only [Bool.not_true, Bool.or_false, Bool.false_eq_true, if_false]
  rw [if_neg (by omega), Nat.mod_eq_zero_of_dvd hd]
  unfold sysWrite
  rw [if_pos (by omega), if_pos (by omega)]
  refine ⟨_, rfl, ?_, ?_⟩
  · show f.data.take f.off ++ (buf.drop pos).take 0 ++ f.data.drop (f.off + _) = f.data
    simp
  · show f.off + _ = f.off
    simp

/-- Negation: if the system cannot tell the size when a read at the beginning asks for more than the file has, nothing is
delivered, as from an empty file, and the object takes the file for empty: a seek to its end goes to the beginning. -/
theorem win_size_unknown (f : F α) (h : Ready f) (hr : f.rd = true) (hf : f.off = 0) (n : Nat) (hn : f.data.length < n) (o : Sys) :
    ∃ f', read f n false o = (.got [], f') ∧ f'.data = f.data ∧
      (seek f' .fromEnd 0 true).1 = true ∧ (seek f' .fromEnd 0 true).2.off = 0 := by
  have hok := ok_of_ready h
  have hop := h.1
  have hc : f.curr = 0 := h.2.1.trans hf
  unfold read
  rw [hop, hr]
  simp only [Bool.not_true, Bool.or_false, Bool.false_eq_true, if_false]
  have hu : readUpdate f n false = { f with max := 0 } := by
    unfold readUpdate updateMax
    rw [sub64_ok hok, if_pos (by dsimp only; omega), hop]
    rfl
  have hs : readSize ({ f with max := 0 } : F α) n = 0 := by
    unfold readSize sub64
    rw [hc]
    simp
  rw [hu, hs, if_pos rfl]
  refine ⟨_, rfl, rfl, ?_⟩
  unfold seek seekTarget
  simp [hop]

example : (read sample 9 false .all).1 = .got [] ∧ (read sample 9 true .all).1 = .got [1, 2, 3, 4, 5] := by decide +kernel

/-- Negation: seeking forward by 2^64 - 1 bytes goes back by one byte. -/
theorem win_seek_wraps : ∃ f : F UInt8, Ready f ∧ f.off = 2 ∧
    clamp f.data.length (target ⟨f.data, f.off⟩ .forward (2 ^ 64 - 1)) = 5 ∧
    (seek f .forward (2 ^ 64 - 1) true).1 = true ∧ (seek f .forward (2 ^ 64 - 1) true).2.curr = 1 :=
  ⟨{ data := [1, 2, 3, 4, 5], off := 2, opened := true, rd := true, wr := true, curr := 2, max := 5 },
    ⟨rfl, rfl, rfl, by decide, by decide⟩, rfl, by decide +kernel, by decide +kernel, by decide +kernel⟩

/-! ## C87 -/

theorem create_wanted (disk : Option (List α)) (creat excl trunc : Bool) :
    (wanted disk creat excl trunc = none ↔ createFile disk (creation creat excl) true = none) ∧
    ∀ d, createFile disk (creation creat excl) true = some d → wanted disk creat excl trunc = some (if trunc then [] else d) := by
  cases disk <;> cases creat <;> cases excl <;> cases trunc <;> simp [wanted, createFile, creation]

/-- C87, failure: after a failed `Open` the object is closed; then everything is refused. -/
theorem win_open_failed (f : F α) (access : Nat) (share : Share) (creat excl trunc append nameOk : Bool) (disk : Option (List α))
    (openOk endOk sizeOk seekOk : Bool) (f' : F α)
    (h : openFile f access share creat excl trunc append nameOk disk openOk endOk sizeOk seekOk = (false, f')) :
    f'.opened = false ∧ (∀ w pos ok, seek f' w pos ok = (false, f')) ∧ (∀ n s o, read f' n s o = (.refused, f')) ∧
      ∀ buf pos size o, write f' buf pos size o = .ok (.refused, f') := by
  have hcl : f'.opened = false := by
    unfold openFile at h
    have hset : ∀ g, setAccess (close f) access = some g → g.opened = false := by
      intro g hg
      unfold setAccess at hg
      split at hg
      · cases hg; rfl
      · split at hg
        · cases hg; rfl
        · split at hg
          · cases hg; rfl
          · cases hg
    split at h
    · cases h; rfl
    · split at h
      · cases h; exact hset _ ‹_›
      · split at h
        · cases h; exact hset _ ‹_›
        · split at h
          · cases h; exact hset _ ‹_›
          · cases h
  refine ⟨hcl, ?_, ?_, ?_⟩
  · intro w pos ok; unfold seek; rw [hcl]; rfl
  · intro n s o; unfold read; rw [hcl]; rfl
  · intro buf pos size o; unfold write; rw [hcl]; rfl

/-- C87 (partial), success: `Open` succeeds exactly for known access and sharing modes, an accepted name and a file the flags
and the system allow to open or create; then the object is in normal use, the contents are those the flags ask for and the
position is the beginning, or the end with `O_APPEND`.  Missing: a system that refuses to truncate, to tell the
size or to move to the end (`win_open_truncate`, `win_open_append`). -/
theorem win_open_partial (f : F α) (access : Nat) (share : Share) (creat excl trunc append nameOk : Bool) (disk : Option (List α))
    (openOk : Bool) (hd : ∀ d, disk = some d → d.length < 2 ^ 63) :
    ∃ ok f', openFile f access share creat excl trunc append nameOk disk openOk true true true = (ok, f') ∧
      (ok = true ↔ access < 3 ∧ share ≠ .other ∧ nameOk = true ∧ openOk = true ∧ wanted disk creat excl trunc ≠ none) ∧
      (ok = true → Ready f' ∧ wanted disk creat excl trunc = some f'.data ∧ f'.off = (if append then f'.data.length else 0) ∧
        f'.rd = decide (access = 0 ∨ access = 2) ∧ f'.wr = decide (access = 1 ∨ access = 2)) := by
  unfold openFile
  obtain ⟨hw1, hw2⟩ := create_wanted disk creat excl trunc
  have hset : (3 ≤ access ∧ setAccess (close f) access = none) ∨ (access < 3 ∧
      ∃ g : F α, setAccess (close f) access = some g ∧ g.rd = decide (access = 0 ∨ access = 2) ∧ g.wr = decide (access = 1 ∨ access = 2)) := by
    unfold setAccess
    by_cases h0 : access = 0
    · subst h0; exact .inr ⟨by decide, _, rfl, rfl, rfl⟩
    · by_cases h1 : access = 1
      · subst h1; exact .inr ⟨by decide, _, rfl, rfl, rfl⟩
      · by_cases h2 : access = 2
        · subst h2; exact .inr ⟨by decide, _, rfl, rfl, rfl⟩
        · rw [if_neg h0, if_neg h1, if_neg h2]
          exact .inl ⟨by omega, rfl⟩
  rcases hset with ⟨ha, e⟩ | ⟨ha, g, e, hrd, hwr⟩
  · rw [e]
    exact ⟨_, _, rfl, ⟨(fun h => nomatch h), fun h => by omega⟩, (fun h => nomatch h)⟩
  · rw [e]
    dsimp only
    by_cases hs : share = .other
    · rw [if_pos hs]
      exact ⟨_, _, rfl, ⟨(fun h => nomatch h), fun h => absurd hs h.2.1⟩, (fun h => nomatch h)⟩
    rw [if_neg hs]
    cases hn : nameOk with
    | false => exact ⟨_, _, rfl, ⟨(fun h => nomatch h), fun h => nomatch h.2.2.1⟩, (fun h => nomatch h)⟩
    | true =>
    simp only [Bool.not_true, Bool.false_eq_true, if_false]
    cases ho : openOk with
    | false =>
      have : createFile disk (creation creat excl) false = none := rfl
      rw [this]
      exact ⟨_, _, rfl, ⟨(fun h => nomatch h), fun h => nomatch h.2.2.2.1⟩, (fun h => nomatch h)⟩
    | true =>
    cases hc : createFile disk (creation creat excl) true with
    | none => exact ⟨_, _, rfl, ⟨(fun h => nomatch h), fun h => absurd (hw1.2 hc) h.2.2.2.2⟩, (fun h => nomatch h)⟩
    | some d =>
      dsimp only
      have hwd := hw2 d hc
      have hdl : d.length < 2 ^ 63 := by
        unfold createFile at hc
        cases disk with
        | none => cases creat <;> cases excl <;> simp [creation] at hc <;> subst hc <;> simp
        | some d' =>
          have := hd d' rfl
          cases creat <;> cases excl <;> simp [creation] at hc <;> subst hc <;> exact this
      refine ⟨_, _, rfl, ⟨fun _ => ⟨ha, hs, by trivial, by trivial, by rw [hwd]; simp⟩, fun _ => rfl⟩, fun _ => ?_⟩
      rw [hwd]
      unfold afterOpen
      cases trunc with
      | true =>
        simp only [if_true]
        exact ⟨⟨rfl, rfl, rfl, Nat.zero_le _, by simp⟩, trivial, by simp, hrd, hwr⟩
      | false =>
        simp only [Bool.false_eq_true, if_false]
        cases append with
        | false =>
          simp only [Bool.false_eq_true, if_false]
          exact ⟨⟨rfl, rfl, rfl, Nat.zero_le _, hdl⟩, rfl, rfl, hrd, hwr⟩
        | true =>
          simp only [if_true]
          have : (seek (updateMax ({ g with opened := true, data := d, off := 0 } : F α) true) .fromEnd 0 true).2 =
              { g with opened := true, data := d, off := d.length, curr := d.length, max := d.length } := by
            unfold seek seekTarget updateMax
            have : ¬ 2 ^ 63 ≤ d.length := by omega
            simp [this]
          rw [this]
          exact ⟨⟨rfl, rfl, rfl, Nat.le_refl _, hdl⟩, rfl, rfl, hrd, hwr⟩

example : (openFile (F.fresh : F UInt8) 2 .both true false false true true (some [1, 2, 3]) true true true true).2.off = 3 ∧
    (openFile (F.fresh : F UInt8) 2 .both true true false true true (some [1, 2, 3]) true true true true).1 = false ∧
    (openFile (F.fresh : F UInt8) 0 .both false false false false true none true true true true).1 = false := by decide

/-- Negation: `O_TRUNC` without write access.  The system refuses to truncate, which is not noticed: `Open` returns true, the
contents are there, but the object takes the file for empty and does not move in it. -/
theorem win_open_truncate (d : List α) (ok2 ok3 : Bool) (pos : Nat) (w : Whence) (hw : w ≠ .other) :
    ∃ f : F α, openFile F.fresh 0 .both false false true false true (some d) true false ok2 ok3 = (true, f) ∧
      f.data = d ∧ (seek f w pos true).1 = true ∧ (seek f w pos true).2.off = 0 ∧ (d ≠ [] → ¬ Ready f) := by
  have this : ∀ g : F α, g.opened = true → g.max = 0 → g.curr = 0 → seek g w pos true = (true, { g with off := 0, curr := 0 }) := by
    intro g h1 h2 h3
    have : seekTarget g w pos = 0 := by
      unfold seekTarget
      rw [h2, h3]
      cases w <;> simp
    unfold seek
    rw [h1, this]
    rfl
  have this := this { (F.fresh : F α) with opened := true, rd := true, data := d, off := 0, curr := 0, max := 0 } rfl rfl rfl
  refine ⟨_, rfl, rfl, ?_, ?_, ?_⟩
  · exact congrArg Prod.fst this
  · exact congrArg (fun x => x.2.off) this
  · intro hd h
    have h1 := h.2.2.1
    have : (0 : Nat) = d.length := h1
    exact hd (List.eq_nil_of_length_eq_zero this.symm)

/-- Negation: if with `O_APPEND` the system refuses to move to the end, `Open` returns true and the object has the position
it had in the file it was used for before. -/
theorem win_open_append : ∃ f : F UInt8,
    openFile { F.fresh with curr := 7 } 2 .both false false false true true (some [1, 2, 3]) true true true false = (true, f) ∧
      f.curr = 7 ∧ f.off = 0 ∧ ¬ Ready f :=
  ⟨_, rfl, rfl, rfl, fun h => by
    have h1 := h.2.1
    have : (7 : Nat) = 0 := h1
    omega⟩

end Verif.WinFile
