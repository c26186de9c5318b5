import Verif.Csprng.Life
import Mathlib.Tactic.ByContra

/-! # C122: the descriptor of a CSPRNG object -/

namespace Verif.Csprng
namespace LifeSpec

/-- What the program knows: its own open files, by descriptor, and which device each object alive reads (`some none`: none
could be opened). -/
structure Known where
  file : Nat → Option Nat
  dev : Nat → Option (Option Target)

def Known.start : Known := ⟨fun _ => none, fun _ => none⟩

/-- The device an object should read: `/dev/random` if it is to be safe; otherwise `/dev/arandom` if there is one, else
`/dev/urandom`. -/
def device (safe : Bool) (a1 a2 : Option Nat) : Option Target :=
  match safe, a1, a2 with
  | true, some _, _ => some .random
  | true, none, _ => none
  | false, some _, _ => some .arandom
  | false, none, some _ => some .urandom
  | false, none, none => none

/-- The program creates only objects that are not alive, uses and destroys only those that are, and closes only its own
files. -/
def Valid (k : Known) : LOp → Prop
  | .create i _ _ _ => k.dev i = none
  | .bytes i _ _ _ => k.dev i ≠ none
  | .destroy i => k.dev i ≠ none
  | .openFile _ _ => True
  | .closeFile d => k.file d ≠ none

def after (k : Known) : LOp → Known
  | .create i safe a1 a2 => { k with dev := upd k.dev i (some (device safe a1 a2)) }
  | .bytes _ _ _ _ => k
  | .destroy i => { k with dev := upd k.dev i none }
  | .openFile n answer => match answer with
    | some d => { k with file := upd k.file d (some n) }
    | none => k
  | .closeFile d => { k with file := upd k.file d none }

def afterAll (k : Known) (ops : List LOp) : Known := ops.foldl after k

def AllValid : Known → List LOp → Prop
  | _, [] => True
  | k, op :: ops => Valid k op ∧ AllValid (after k op) ops

/-- The proper result of a request: bytes from the object's own device, or a refusal that reads nothing and leaves the
buffer alone. -/
def Good (k : Known) : LOp → LOut → Prop
  | .bytes i size buf reads, .bytes source r =>
    match k.dev i with
    | some (some t) => source = some t ∧ r = getBytesLoop size buf reads
    | some none => source = none ∧ r = .returned (false, buf) reads
    | none => False
  | .bytes _ _ _ _, .unit => False
  | _, o => o = .unit

end LifeSpec
open LifeSpec

theorem upd_same {α : Type} (f : Nat → α) (i : Nat) (x : α) : upd f i x i = x := if_pos rfl
theorem upd_other {α : Type} (f : Nat → α) {i j : Nat} (x : α) (h : j ≠ i) : upd f i x j = f j := if_neg h

/-- Each descriptor in use is a file of the program's own, or the device of exactly one object. -/
structure LInv (w : W) (k : Known) : Prop where
  obj : ∀ i, match w.obj i with
    | none => k.dev i = none
    | some none => k.dev i = some none
    | some (some d) => ∃ t, k.dev i = some (some t) ∧ w.fd d = some t ∧ k.file d = none
  file : ∀ d n, k.file d = some n → w.fd d = some (.file n)
  used : ∀ d, w.fd d ≠ none → k.file d ≠ none ∨ ∃ i, w.obj i = some (some d)
  one : ∀ i j d, w.obj i = some (some d) → w.obj j = some (some d) → i = j

theorem LInv.fileNone {w : W} {k : Known} (h : LInv w k) {d : Nat} (hd : w.fd d = none) : k.file d = none := by
  by_contra hne
  obtain ⟨n, hn⟩ := Option.ne_none_iff_exists'.mp hne
  rw [h.file d n hn] at hd
  cases hd

theorem LInv.alive {w : W} {k : Known} (h : LInv w k) (i : Nat) : w.obj i = none ↔ k.dev i = none := by
  have := h.obj i
  cases e : w.obj i with
  | none => rw [e] at this; simp [this]
  | some o =>
    rw [e] at this
    cases o with
    | none => simp only at this; simp [this]
    | some d => obtain ⟨t, ht, -⟩ := this; simp [ht]

theorem create_inv {w : W} {k : Known} (h : LInv w k) {i d : Nat} (t : Target) (hi : w.obj i = none) (hd : w.fd d = none) :
    LInv ⟨upd w.fd d (some t), upd w.obj i (some (some d))⟩ { k with dev := upd k.dev i (some (some t)) } := by
  have hkd := h.fileNone hd
  have hno : ∀ j, w.obj j ≠ some (some d) := fun j hj => by
    have := h.obj j
    rw [hj] at this
    obtain ⟨t', -, h2, -⟩ := this
    rw [hd] at h2; cases h2
  refine ⟨fun j => ?_, fun e n he => ?_, fun e he => ?_, fun j j' e h1 h2 => ?_⟩
  · by_cases hj : j = i
    · subst hj
      simp only [upd_same]
      exact ⟨t, rfl, rfl, hkd⟩
    · simp only [upd_other _ _ hj]
      have := h.obj j
      cases hw : w.obj j with
      | none => rw [hw] at this; exact this
      | some o =>
        rw [hw] at this
        cases o with
        | none => exact this
        | some e =>
          obtain ⟨t', h1, h2, h3⟩ := this
          have he : e ≠ d := fun he => by rw [he, hd] at h2; cases h2
          exact ⟨t', h1, by simp only [upd_other _ _ he]; exact h2, h3⟩
  · have hed : e ≠ d := fun hed => by
      change k.file e = _ at he
      rw [hed, hkd] at he; cases he
    simp only [upd_other _ _ hed]
    exact h.file e n he
  · by_cases hed : e = d
    · exact .inr ⟨i, by simp only [upd_same, hed]⟩
    · simp only [upd_other _ _ hed] at he
      rcases h.used e he with h1 | ⟨j, hj⟩
      · exact .inl h1
      · refine .inr ⟨j, ?_⟩
        have hji : j ≠ i := fun hji => by rw [hji, hi] at hj; cases hj
        simp only [upd_other _ _ hji]
        exact hj
  · by_cases hj : j = i
    · by_cases hj' : j' = i
      · rw [hj, hj']
      · subst hj
        simp only [upd_same, upd_other _ _ hj'] at h1 h2
        cases h1
        exact absurd h2 (hno j')
    · by_cases hj' : j' = i
      · subst hj'
        simp only [upd_same, upd_other _ _ hj] at h1 h2
        cases h2
        exact absurd h1 (hno j)
      · simp only [upd_other _ _ hj, upd_other _ _ hj'] at h1 h2
        exact h.one j j' e h1 h2

theorem create_none_inv {w : W} {k : Known} (h : LInv w k) {i : Nat} (hi : w.obj i = none) :
    LInv ⟨w.fd, upd w.obj i (some none)⟩ { k with dev := upd k.dev i (some none) } := by
  refine ⟨fun j => ?_, h.file, fun e he => ?_, fun j j' e h1 h2 => ?_⟩
  · by_cases hj : j = i
    · subst hj
      simp only [upd_same]
    · simp only [upd_other _ _ hj]
      exact h.obj j
  · rcases h.used e he with h1 | ⟨j, hj⟩
    · exact .inl h1
    · refine .inr ⟨j, ?_⟩
      have hji : j ≠ i := fun hji => by rw [hji, hi] at hj; cases hj
      simp only [upd_other _ _ hji]
      exact hj
  · by_cases hj : j = i
    · subst hj; simp only [upd_same] at h1; cases h1
    · by_cases hj' : j' = i
      · subst hj'; simp only [upd_same] at h2; cases h2
      · simp only [upd_other _ _ hj, upd_other _ _ hj'] at h1 h2
        exact h.one j j' e h1 h2

theorem lstep_inv {w w' : W} {k : Known} {op : LOp} {o : LOut} (h : LInv w k) (hv : Valid k op) (e : lstep w op = some (o, w')) :
    Good k op o ∧ LInv w' (after k op) := by
  cases op with
  | create i safe a1 a2 =>
    have hi := (h.alive i).2 hv
    simp only [lstep, hi, if_pos] at e
    unfold create at e
    cases safe with
    | true =>
      cases a1 with
      | none =>
        simp [openFd] at e
        obtain ⟨rfl, rfl⟩ := e
        exact ⟨rfl, create_none_inv h hi⟩
      | some d =>
        by_cases hd : w.fd d = none
        · simp [openFd, hd] at e
          obtain ⟨rfl, rfl⟩ := e
          exact ⟨rfl, create_inv h .random hi hd⟩
        · simp [openFd, hd] at e
    | false =>
      cases a1 with
      | none =>
        cases a2 with
        | none =>
          simp [openFd] at e
          obtain ⟨rfl, rfl⟩ := e
          exact ⟨rfl, create_none_inv h hi⟩
        | some d =>
          by_cases hd : w.fd d = none
          · simp [openFd, hd] at e
            obtain ⟨rfl, rfl⟩ := e
            exact ⟨rfl, create_inv h .urandom hi hd⟩
          · simp [openFd, hd] at e
      | some d =>
        by_cases hd : w.fd d = none
        · simp [openFd, hd] at e
          obtain ⟨rfl, rfl⟩ := e
          have : device false (some d) a2 = some .arandom := by cases a2 <;> rfl
          refine ⟨rfl, ?_⟩
          simp only [after, this]
          exact create_inv h .arandom hi hd
        · simp [openFd, hd] at e
  | bytes i size buf reads =>
    have hobj := h.obj i
    cases hw : w.obj i with
    | none => exact absurd ((h.alive i).1 hw) hv
    | some d =>
      rw [hw] at hobj
      cases d with
      | none =>
        simp only at hobj
        simp [lstep, hw] at e
        obtain ⟨rfl, rfl⟩ := e
        refine ⟨?_, h⟩
        simp only [Good, hobj]
        exact ⟨trivial, rfl⟩
      | some d =>
        obtain ⟨t, h1, h2, -⟩ := hobj
        simp [lstep, hw] at e
        obtain ⟨rfl, rfl⟩ := e
        refine ⟨?_, h⟩
        simp only [Good, h1]
        exact ⟨h2, rfl⟩
  | destroy i =>
    cases hw : w.obj i with
    | none => exact absurd ((h.alive i).1 hw) hv
    | some d =>
      have hobj := h.obj i
      rw [hw] at hobj
      cases d with
      | none =>
        simp [lstep, destroy, closeFd, hw] at e
        obtain ⟨rfl, rfl⟩ := e
        refine ⟨rfl, fun j => ?_, h.file, fun e he => ?_, fun j j' e h1 h2 => ?_⟩
        · by_cases hj : j = i
          · subst hj; simp only [upd_same, after]
          · simp only [upd_other _ _ hj, after]; exact h.obj j
        · rcases h.used e he with h1 | ⟨j, hj⟩
          · exact .inl h1
          · refine .inr ⟨j, ?_⟩
            have hji : j ≠ i := fun hji => by rw [hji, hw] at hj; cases hj
            simp only [upd_other _ _ hji]
            exact hj
        · by_cases hj : j = i
          · subst hj; simp only [upd_same] at h1; cases h1
          · by_cases hj' : j' = i
            · subst hj'; simp only [upd_same] at h2; cases h2
            · simp only [upd_other _ _ hj, upd_other _ _ hj'] at h1 h2
              exact h.one j j' e h1 h2
      | some d =>
        obtain ⟨t, g1, g2, g3⟩ := hobj
        simp [lstep, destroy, closeFd, hw] at e
        obtain ⟨rfl, rfl⟩ := e
        refine ⟨rfl, fun j => ?_, fun e n he => ?_, fun e he => ?_, fun j j' e h1 h2 => ?_⟩
        · by_cases hj : j = i
          · subst hj; simp only [upd_same, after]
          · simp only [upd_other _ _ hj, after]
            have := h.obj j
            cases hwj : w.obj j with
            | none => rw [hwj] at this; exact this
            | some o =>
              rw [hwj] at this
              cases o with
              | none => exact this
              | some e =>
                obtain ⟨t', k1, k2, k3⟩ := this
                have he : e ≠ d := fun he => hj (h.one j i d (by rw [hwj, he]) hw)
                exact ⟨t', k1, by simp only [upd_other _ _ he]; exact k2, k3⟩
        · change k.file e = _ at he
          have hed : e ≠ d := fun hed => by rw [hed, g3] at he; cases he
          simp only [upd_other _ _ hed]
          exact h.file e n he
        · by_cases hed : e = d
          · subst hed; simp only [upd_same] at he; exact absurd rfl he
          · simp only [upd_other _ _ hed] at he
            rcases h.used e he with h1 | ⟨j, hj⟩
            · exact .inl h1
            · refine .inr ⟨j, ?_⟩
              have hji : j ≠ i := fun hji => by rw [hji, hw] at hj; cases hj; exact hed rfl
              simp only [upd_other _ _ hji]
              exact hj
        · by_cases hj : j = i
          · subst hj; simp only [upd_same] at h1; cases h1
          · by_cases hj' : j' = i
            · subst hj'; simp only [upd_same] at h2; cases h2
            · simp only [upd_other _ _ hj, upd_other _ _ hj'] at h1 h2
              exact h.one j j' e h1 h2
  | openFile n answer =>
    cases answer with
    | none =>
      simp [lstep, openFd] at e
      obtain ⟨rfl, rfl⟩ := e
      exact ⟨rfl, h⟩
    | some d =>
      by_cases hd : w.fd d = none
      · simp [lstep, openFd, hd] at e
        obtain ⟨rfl, rfl⟩ := e
        have hno : ∀ j, w.obj j ≠ some (some d) := fun j hj => by
          have := h.obj j
          rw [hj] at this
          obtain ⟨t', -, h2, -⟩ := this
          rw [hd] at h2; cases h2
        refine ⟨rfl, fun j => ?_, fun e m he => ?_, fun e he => ?_, h.one⟩
        · have := h.obj j
          cases hwj : w.obj j with
          | none => rw [hwj] at this; exact this
          | some o =>
            rw [hwj] at this
            cases o with
            | none => exact this
            | some e =>
              obtain ⟨t', k1, k2, k3⟩ := this
              have he : e ≠ d := fun he => hno j (by rw [hwj, he])
              exact ⟨t', k1, by simp only [upd_other _ _ he]; exact k2, by simp only [after, upd_other _ _ he]; exact k3⟩
        · change upd k.file d (some n) e = some m at he
          by_cases hed : e = d
          · subst hed
            rw [upd_same] at he
            cases he
            simp only [upd_same]
          · rw [upd_other _ _ hed] at he
            simp only [upd_other _ _ hed]
            exact h.file e m he
        · by_cases hed : e = d
          · subst hed; exact .inl (by simp [after, upd_same])
          · simp only [upd_other _ _ hed] at he
            rcases h.used e he with h1 | h1
            · exact .inl (by simp only [after, upd_other _ _ hed]; exact h1)
            · exact .inr h1
      · simp [lstep, openFd, hd] at e
  | closeFile d =>
    obtain ⟨n, hn⟩ := Option.ne_none_iff_exists'.mp (show k.file d ≠ none from hv)
    have hfd := h.file d n hn
    simp [lstep, hfd, closeFd] at e
    obtain ⟨rfl, rfl⟩ := e
    have hno : ∀ j, w.obj j ≠ some (some d) := fun j hj => by
      have := h.obj j
      rw [hj] at this
      obtain ⟨t', -, -, h3⟩ := this
      rw [hn] at h3; cases h3
    refine ⟨rfl, fun j => ?_, fun e m he => ?_, fun e he => ?_, h.one⟩
    · have := h.obj j
      cases hwj : w.obj j with
      | none => rw [hwj] at this; exact this
      | some o =>
        rw [hwj] at this
        cases o with
        | none => exact this
        | some e =>
          obtain ⟨t', k1, k2, k3⟩ := this
          have he : e ≠ d := fun he => hno j (by rw [hwj, he])
          exact ⟨t', k1, by simp only [upd_other _ _ he]; exact k2, by simp only [after, upd_other _ _ he]; exact k3⟩
    · change upd k.file d none e = some m at he
      by_cases hed : e = d
      · subst hed
        rw [upd_same] at he
        cases he
      · rw [upd_other _ _ hed] at he
        simp only [upd_other _ _ hed]
        exact h.file e m he
    · by_cases hed : e = d
      · subst hed; simp only [upd_same] at he; exact absurd rfl he
      · simp only [upd_other _ _ hed] at he
        rcases h.used e he with h1 | h1
        · exact .inl (by simp only [after, upd_other _ _ hed]; exact h1)
        · exact .inr h1

theorem lrun_inv : ∀ (ops : List LOp) (w : W) (k : Known) (h : List (LOp × LOut)) (w' : W), LInv w k → AllValid k ops →
    lrun w ops = some (h, w') → LInv w' (afterAll k ops)
  | [], w, k, h, w', hi, hv, e => by
    simp [lrun] at e
    obtain ⟨-, rfl⟩ := e
    exact hi
  | op :: ops, w, k, h, w', hi, hv, e => by
    unfold lrun at e
    cases e1 : lstep w op with
    | none => simp [e1] at e
    | some x =>
      obtain ⟨o, w1⟩ := x
      cases e2 : lrun w1 ops with
      | none => simp [e1, e2] at e
      | some y =>
        obtain ⟨h1, w2⟩ := y
        simp [e1, e2] at e
        obtain ⟨-, rfl⟩ := e
        exact lrun_inv ops w1 (after k op) h1 _ (lstep_inv hi hv.1 e1).2 hv.2 e2

theorem start_inv : LInv .start .start :=
  ⟨fun i => rfl, fun d n e => (nomatch e), fun d e => absurd rfl e, fun i j d e => (nomatch e)⟩

/-- C122.  Whatever objects were created and destroyed and whatever files the program opened and closed before, a request
reads the object's own device and nothing else, or is refused at once if no device could be opened; and the program may do what
it may do. -/
theorem csprng_reads (ops : List LOp) (h : List (LOp × LOut)) (w : W) (e : lrun .start ops = some (h, w)) (hv : AllValid .start ops)
    (op : LOp) (hop : Valid (afterAll .start ops) op) (o : LOut) (w' : W) (e' : lstep w op = some (o, w')) :
    Good (afterAll .start ops) op o :=
  (lstep_inv (lrun_inv ops _ _ h w start_inv hv e) hop e').1

/-- C122.  At any moment the descriptors in use are the files of the program, unchanged, and one for each object whose device
could be opened, no two sharing one. -/
theorem csprng_descriptors (ops : List LOp) (h : List (LOp × LOut)) (w : W) (e : lrun .start ops = some (h, w)) (hv : AllValid .start ops) :
    (∀ d n, (afterAll .start ops).file d = some n → w.fd d = some (.file n)) ∧
    ∃ owner : Nat → Nat, ∀ d, w.fd d ≠ none → (afterAll .start ops).file d = none →
      (afterAll .start ops).dev (owner d) = some (w.fd d) ∧
      ∀ d', w.fd d' ≠ none → (afterAll .start ops).file d' = none → owner d' = owner d → d' = d := by
  have hi := lrun_inv ops _ _ h w start_inv hv e
  refine ⟨hi.file, ?_⟩
  have hex : ∀ d, ∃ i, w.fd d ≠ none → (afterAll .start ops).file d = none → w.obj i = some (some d) := by
    intro d
    by_cases h1 : w.fd d ≠ none ∧ (afterAll .start ops).file d = none
    · rcases hi.used d h1.1 with h2 | ⟨i, h2⟩
      · exact absurd h1.2 h2
      · exact ⟨i, fun _ _ => h2⟩
    · exact ⟨0, fun h2 h3 => absurd ⟨h2, h3⟩ h1⟩
  refine ⟨fun d => Classical.choose (hex d), fun d h1 h2 => ⟨?_, fun d' h1' h2' e' => ?_⟩⟩
  · have h3 := Classical.choose_spec (hex d) h1 h2
    have := hi.obj (Classical.choose (hex d))
    rw [h3] at this
    obtain ⟨t, g1, g2, -⟩ := this
    rw [g1, g2]
  · have h3 := Classical.choose_spec (hex d) h1 h2
    have h3' := Classical.choose_spec (hex d') h1' h2'
    change Classical.choose (hex d') = Classical.choose (hex d) at e'
    rw [e', h3] at h3'
    exact (Option.some.inj (Option.some.inj h3')).symm

/-- C122.  When all objects are destroyed, only the program's own files are open. -/
theorem csprng_closed (ops : List LOp) (h : List (LOp × LOut)) (w : W) (e : lrun .start ops = some (h, w)) (hv : AllValid .start ops)
    (hend : ∀ i, (afterAll .start ops).dev i = none) (d : Nat) : w.fd d = ((afterAll .start ops).file d).map .file := by
  have hi := lrun_inv ops _ _ h w start_inv hv e
  cases hf : (afterAll .start ops).file d with
  | some n => exact hi.file d n hf
  | none =>
    by_contra hne
    rcases hi.used d hne with h1 | ⟨i, h1⟩
    · exact h1 hf
    · have := (hi.alive i).2 (hend i)
      rw [h1] at this; cases this

/-- C122.  What a program may do, it can do: the actions are refused by no system. -/
theorem csprng_can (ops : List LOp) (h : List (LOp × LOut)) (w : W) (e : lrun .start ops = some (h, w)) (hv : AllValid .start ops)
    (op : LOp) (hop : Valid (afterAll .start ops) op)
    (hans : match op with
      | .create _ _ a1 a2 => (∀ d, a1 = some d → w.fd d = none) ∧ ∀ d, a2 = some d → w.fd d = none
      | .openFile _ a => ∀ d, a = some d → w.fd d = none
      | _ => True) : ∃ o w', lstep w op = some (o, w') := by
  have hi := lrun_inv ops _ _ h w start_inv hv e
  cases op with
  | create i safe a1 a2 =>
    have h0 := (hi.alive i).2 hop
    cases safe <;> cases a1 <;> cases a2 <;> simp_all [lstep, create, openFd]
  | bytes i size buf reads =>
    have h0 : w.obj i ≠ none := fun h0 => hop ((hi.alive i).1 h0)
    obtain ⟨d, hd⟩ := Option.ne_none_iff_exists'.mp h0
    cases d <;> simp [lstep, hd]
  | destroy i =>
    have h0 : w.obj i ≠ none := fun h0 => hop ((hi.alive i).1 h0)
    obtain ⟨d, hd⟩ := Option.ne_none_iff_exists'.mp h0
    simp [lstep, destroy, hd]
  | openFile n a =>
    cases a with
    | none => simp [lstep, openFd]
    | some d => simp [lstep, openFd, hans d rfl]
  | closeFile d =>
    obtain ⟨n, hn⟩ := Option.ne_none_iff_exists'.mp (show (afterAll .start ops).file d ≠ none from hop)
    simp [lstep, hi.file d n hn]

/-! ## A concrete case -/

/-- Two objects, the second without a device, and two files of the program; a descriptor is used again. -/
def demoOps : List LOp :=
  [.openFile 7 (some 3), .create 0 true (some 4) none, .create 1 false none none, .bytes 1 4 [0, 0] [], .bytes 0 2 [9, 9] [.got [1, 2]],
   .destroy 0, .openFile 8 (some 4), .create 0 false none (some 5), .destroy 1, .closeFile 3]

example : AllValid .start demoOps := by
  refine ⟨trivial, rfl, rfl, ?_, ?_, ?_, trivial, rfl, ?_, ?_, trivial⟩ <;> (intro h; cases h)

example : (lrun .start demoOps).map (fun r => (r.1.map (·.2), (List.range 7).map r.2.fd)) =
    some ([.unit, .unit, .unit, .bytes none (.returned (false, [0, 0]) []), .bytes (some .random) (.returned (true, [1, 2]) []), .unit, .unit,
      .unit, .unit, .unit], [none, none, none, none, some (.file 8), some .urandom, none]) := by decide +kernel

end Verif.Csprng
