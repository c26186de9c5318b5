import Verif.WinPath.Lemmas

/-!
# `GetPlatformFilename` on Windows, step by step
-/

namespace Verif.WinPath
open Spec Verif.Utf8 Verif.Utf8.Spec
open Verif.Path (cstr at_ cstr_ok)

/-- The length of the prefix the code recognises. -/
def root (s : List Nat) : Nat := if Begins unc s then 8 else if uni <+: s then 4 else 0

theorem begins_len {p s : List Nat} (h : Begins p s) : p.length ≤ s.length := by
  have := h.length_le
  simpa using this

theorem root_le (s : List Nat) : root s ≤ s.length := by
  unfold root
  split
  · next h => exact begins_len h
  · split
    · next h => exact h.length_le
    · exact Nat.zero_le _

theorem body_root (s : List Nat) : body s = afterDrive (s.drop (root s)) := by
  unfold body root
  split
  · rfl
  · split <;> rfl

/-- The string after the drive letter is put in upper case. -/
def lifted (s : List Nat) : List Nat := s.take (root s) ++ upperDrive (s.drop (root s))

theorem lifted_len (s : List Nat) : (lifted s).length = s.length := by
  unfold lifted
  rw [List.length_append, upper_len, List.length_take, List.length_drop]
  have := root_le s
  omega

theorem lifted_zero {s : List Nat} (h : 0 ∉ s) : 0 ∉ lifted s := by
  unfold lifted upperDrive
  intro hm
  rcases List.mem_append.1 hm with hm | hm
  · exact h (List.mem_of_mem_take hm)
  · split at hm
    · cases hd : s.drop (root s) with
      | nil => rw [hd] at hm; cases hm
      | cons c r =>
        have hc : c ∈ s := List.mem_of_mem_drop (i := root s) (by rw [hd]; simp)
        have hr : ∀ e ∈ r, e ∈ s := fun e he => List.mem_of_mem_drop (i := root s) (by rw [hd]; simp [he])
        rw [hd] at hm
        simp only [upperFirst, List.mem_cons] at hm
        rcases hm with hm | hm
        · split at hm
          · omega
          · subst hm; exact h hc
        · exact h (hr _ hm)
    · exact h (List.mem_of_mem_drop hm)

/-- Where the loop over the characters begins. -/
def start (s : List Nat) : Nat := if Drive (s.drop (root s)) then root s + 2 else root s

theorem drive_len {s : List Nat} (h : Drive s) : 2 ≤ s.length := by
  match s, h with
  | _ :: _ :: _, _ => simp

theorem start_split (s : List Nat) : ∃ cur, lifted s = cur ++ body s ∧ cur.length = start s ∧
    (start s = 0 → body s = s) ∧ (start s ≠ 0 → Marked cur) := by
  have hr := root_le s
  rw [body_root]
  unfold lifted start afterDrive upperDrive
  have hl : (s.take (root s)).length = root s := by rw [List.length_take]; omega
  -- a prefix has a backslash
  have hmark : root s ≠ 0 → Marked (s.take (root s)) := by
    intro h0
    have h1 : ∃ c, s[0]? = some c ∧ c = 92 := by
      unfold root at h0
      by_cases hu : Begins unc s
      · cases s with
        | nil => exact absurd (begins_len hu) (by simp [unc])
        | cons c r =>
          have : fold 92 = fold c := (List.cons_prefix_cons.1 hu).1
          refine ⟨c, rfl, ?_⟩
          unfold fold at this
          split at this <;> split at this <;> omega
      · rw [if_neg hu] at h0
        by_cases hu2 : uni <+: s
        · cases s with
          | nil => exact absurd hu2.length_le (by simp [uni])
          | cons c r => exact ⟨c, rfl, ((List.cons_prefix_cons.1 hu2).1).symm⟩
        · rw [if_neg hu2] at h0
          exact absurd rfl h0
    obtain ⟨c, h1, h2⟩ := h1
    refine ⟨c, ?_, .inr (.inr h2)⟩
    apply List.mem_of_getElem? (i := 0)
    rw [List.getElem?_take, if_pos (by omega), h1]
  by_cases hd : Drive (s.drop (root s))
  · rw [if_pos hd, if_pos hd, if_pos hd]
    match hs : s.drop (root s), hd with
    | c :: d :: r, hd =>
      refine ⟨s.take (root s) ++ [(if 97 ≤ c ∧ c ≤ 122 then c - 32 else c), d], by simp [upperFirst], by simp; omega,
        fun h => by omega, fun _ => ⟨d, by simp, .inr (.inl hd.2)⟩⟩
  · rw [if_neg hd, if_neg hd, if_neg hd]
    refine ⟨s.take (root s), rfl, hl, fun h => by rw [h]; rfl, hmark⟩

/-- The names the code accepts: like `Acceptable`, but after a prefix or a drive letter the first component
is not compared with the reserved names. -/
def CodeAccepts (sgn : Bool) (s : List Nat) : Prop :=
  (∀ c ∈ body s, rejected sgn c = false) ∧
    ∀ g ∈ (if start s = 0 then pieces (body s) else (pieces (body s)).tail), ¬ Reserved (stem g)

theorem nameLoop_start (sgn : Bool) (s rest : List Nat) :
    ∃ b, nameLoop sgn (lifted s ++ 0 :: rest) (s.length - start s) (start s) 0 = .ok b ∧ (b = true ↔ CodeAccepts sgn s) := by
  obtain ⟨cur, h1, h2, h3, h4⟩ := start_split s
  obtain ⟨b, k1, k2, k3⟩ := nameLoop_ok sgn rest (body s) [] cur
  have hlen := lifted_len s
  rw [h1, List.length_append] at hlen
  rw [List.nil_append, ← h1, h2, show (body s).length = s.length - start s by omega] at k1
  refine ⟨b, k1, ?_⟩
  unfold CodeAccepts
  by_cases h0 : start s = 0
  · have hc : cur = [] := List.eq_nil_of_length_eq_zero (by omega)
    subst hc
    rw [if_pos h0]
    exact k2 (by simp) (by simp)
  · rw [if_neg h0]
    exact k3 (h4 h0)

theorem canon_step (s rest : List Nat) : ∃ s', s' = (if preNt <+: s then uni ++ s.drop 4 else s) ∧ s'.length = s.length ∧
    (do
      let nt ← at_ (s ++ 0 :: rest) 0 preNt
      (if nt then wr (s ++ 0 :: rest) 1 92 else .ok (s ++ 0 :: rest) : CRes (List Nat))) = .ok (s' ++ 0 :: rest) := by
  refine ⟨_, rfl, ?_⟩
  rw [at_ok s rest _ 0 (by decide) (Nat.zero_le _), ok_bind, List.drop_zero]
  by_cases h : preNt <+: s
  · obtain ⟨t, rfl⟩ := h
    rw [if_pos (List.prefix_append _ _), decide_eq_true (List.prefix_append _ _)]
    refine ⟨by simp [preNt, uni], ?_⟩
    simp [preNt, uni, wr]
  · rw [if_neg h, decide_eq_false h]
    exact ⟨rfl, rfl⟩

/-- The code up to the addition of prefixes. -/
theorem checkName_upto (sgn : Bool) (reg : List Nat → Option Nat) (size : Nat) (s0 rest : List Nat) (allow : Bool)
    (s : List Nat) (hs : s = if preNt <+: s0 then uni ++ s0.drop 4 else s0) :
    (Device s → checkName sgn reg s0.length size (s0 ++ 0 :: rest) allow = .ok (allow, s ++ 0 :: rest)) ∧
    (¬ Device s → ¬ CodeAccepts sgn s → checkName sgn reg s0.length size (s0 ++ 0 :: rest) allow = .ok (false, lifted s ++ 0 :: rest)) ∧
    (¬ Device s → CodeAccepts sgn s → checkName sgn reg s0.length size (s0 ++ 0 :: rest) allow =
      prefixes reg s.length size (decide (Drive (s.drop (root s)) ∨ vol <+: s)) (decide (Begins unc s))
        (decide (Begins unc s ∨ uni <+: s)) (lifted s ++ 0 :: rest)) := by
  obtain ⟨s', e1, e2, e3⟩ := canon_step s0 rest
  rw [← hs] at e1
  subst e1
  clear hs
  have split1 : checkName sgn reg s0.length size (s0 ++ 0 :: rest) allow = (do
      let r ← (do
        let nt ← at_ (s0 ++ 0 :: rest) 0 preNt
        (if nt then wr (s0 ++ 0 :: rest) 1 92 else .ok (s0 ++ 0 :: rest) : CRes (List Nat)))
      let dev ← orElse (atI r 0 preDevice) (at_ r 0 preDev)
      if dev then .ok (allow, r)
      else do
        let unc ← atI r 0 preUnc
        let uni ← (if unc then .ok true else at_ r 0 preUni)
        let x := if unc then 8 else if uni then 4 else 0
        let (letter, r) ← letterAt r x
        let drive ← (if letter then .ok true else at_ r 0 preVolume)
        let x := if letter then x + 2 else x
        let ok ← nameLoop sgn r (s0.length - x) x 0
        if ok then prefixes reg s0.length size drive unc uni r else .ok (false, r)) := by
    unfold checkName
    rw [at_ok s0 rest _ 0 (by decide) (Nat.zero_le _)]
    rfl
  rw [split1, e3, ok_bind]
  clear split1 e3
  rw [atI_ok s' rest _ 0 (by decide) (Nat.zero_le _), at_ok s' rest _ 0 (by decide) (Nat.zero_le _), orElse_ok, ok_bind,
    List.drop_zero]
  have hdev : (decide (Begins preDevice s') || decide (preDev <+: s')) = decide (Device s') := by
    rw [Bool.eq_iff_iff]
    simp only [Bool.or_eq_true, decide_eq_true_eq]
    rfl
  rw [hdev]
  refine ⟨fun hd => by rw [decide_eq_true hd]; rfl, ?_⟩
  have main : ¬ Device s' → ∃ b, (b = true ↔ CodeAccepts sgn s') ∧ (do
      if decide (Device s') then .ok (allow, s' ++ 0 :: rest)
      else do
        let unc ← atI (s' ++ 0 :: rest) 0 preUnc
        let uni ← (if unc then .ok true else at_ (s' ++ 0 :: rest) 0 preUni)
        let x := if unc then 8 else if uni then 4 else 0
        let (letter, r) ← letterAt (s' ++ 0 :: rest) x
        let drive ← (if letter then .ok true else at_ r 0 preVolume)
        let x := if letter then x + 2 else x
        let ok ← nameLoop sgn r (s0.length - x) x 0
        if ok then prefixes reg s0.length size drive unc uni r else .ok (false, r) : CRes (Bool × List Nat)) =
      if b then prefixes reg s'.length size (decide (Drive (s'.drop (root s')) ∨ vol <+: s')) (decide (Begins unc s'))
        (decide (Begins unc s' ∨ uni <+: s')) (lifted s' ++ 0 :: rest) else .ok (false, lifted s' ++ 0 :: rest) := by
    intro hd
    rw [decide_eq_false hd, if_neg (by simp)]
    rw [atI_ok s' rest _ 0 (by decide) (Nat.zero_le _), ok_bind, List.drop_zero]
    have h1 : (if decide (Begins preUnc s') = true then .ok true else at_ (s' ++ 0 :: rest) 0 preUni : CRes Bool) =
        .ok (decide (Begins unc s' ∨ uni <+: s')) := by
      rw [at_ok s' rest _ 0 (by decide) (Nat.zero_le _), List.drop_zero]
      by_cases hb : Begins preUnc s'
      · rw [if_pos (by simpa using hb), decide_eq_true (.inl hb)]
      · rw [if_neg (by simpa using hb)]
        congr 1
        exact decide_eq_decide.2 ⟨.inr, fun h => h.resolve_left hb⟩
    rw [h1, ok_bind]
    have hx : (if decide (Begins preUnc s') = true then 8 else if decide (Begins unc s' ∨ uni <+: s') = true then 4 else 0) = root s' := by
      unfold root
      by_cases hb : Begins unc s'
      · rw [if_pos (decide_eq_true (show Begins preUnc s' from hb)), if_pos hb]
      · rw [if_neg (fun h : decide (Begins preUnc s') = true => hb (of_decide_eq_true h)), if_neg hb]
        simp only [decide_eq_true_eq, hb, false_or]
    simp only [hx]
    rw [letterAt_ok s' rest _ (root_le s'), ok_bind]
    simp only
    rw [show s'.take (root s') ++ upperDrive (s'.drop (root s')) = lifted s' from rfl]
    have h2 : (if decide (Drive (s'.drop (root s'))) = true then .ok true else at_ (lifted s' ++ 0 :: rest) 0 preVolume : CRes Bool) =
        .ok (decide (Drive (s'.drop (root s')) ∨ vol <+: s')) := by
      rw [at_ok _ rest _ 0 (by decide) (Nat.zero_le _), List.drop_zero]
      by_cases hb : Drive (s'.drop (root s'))
      · rw [if_pos (by simpa using hb), decide_eq_true (.inl hb)]
      · rw [if_neg (by simpa using hb)]
        have : lifted s' = s' := by
          unfold lifted upperDrive
          rw [if_neg hb, List.take_append_drop]
        rw [this]
        congr 1
        exact decide_eq_decide.2 ⟨.inr, fun h => h.resolve_left hb⟩
    rw [h2, ok_bind]
    have hst : (if decide (Drive (s'.drop (root s'))) = true then root s' + 2 else root s') = start s' := by
      unfold start
      simp only [decide_eq_true_eq]
    rw [hst]
    obtain ⟨b, k1, k2⟩ := nameLoop_start sgn s' rest
    rw [e2] at k1
    rw [k1, ok_bind]
    refine ⟨b, k2, ?_⟩
    rw [e2]
    rfl
  refine ⟨fun hd hc => ?_, fun hd hc => ?_⟩
  · obtain ⟨b, h1, h2⟩ := main hd
    have : b = false := by
      cases b with
      | false => rfl
      | true => exact absurd (h1.1 rfl) hc
    rw [this] at h2
    exact h2
  · obtain ⟨b, h1, h2⟩ := main hd
    have : b = true := h1.2 hc
    rw [this] at h2
    exact h2

/-! ## Adding the prefixes -/

/-- The result the code gives for a name it accepts (not a bare volume). -/
def codeNormal (s : List Nat) : List Nat :=
  if Begins unc s then s.take 8 ++ upperDrive (s.drop 8)
  else if uni <+: s then
    if Drive (s.drop 4) then uni ++ upperDrive (s.drop 4) else unc ++ s.drop 4
  else if Drive s then uni ++ upperDrive s
  else if [92, 92] <+: s then unc ++ s.drop 2
  else s

/-- Making room inside a string and filling it. -/
theorem insert_ok (a p t rest : List Nat) (dst n : Nat) (hn : n = t.length + 1) (hd : dst = a.length + p.length)
    (h : p.length ≤ rest.length) :
    (do
      let r ← memmoveIn (a ++ t ++ 0 :: rest) dst a.length n
      memcpyTo r a.length p p.length) = .ok (a ++ p ++ t ++ 0 :: rest.drop p.length) := by
  subst hn hd
  have hlen : (a ++ t ++ 0 :: rest).length = a.length + t.length + 1 + rest.length := by simp; omega
  unfold memmoveIn memcpyTo
  rw [if_pos (by omega), if_pos (by omega), ok_bind]
  have e1 : ((a ++ t ++ 0 :: rest).drop a.length).take (t.length + 1) = t ++ [0] := by
    rw [List.append_assoc, List.drop_left, List.take_append, List.take_of_length_le (by omega),
      show t.length + 1 - t.length = 1 by omega]
    rfl
  have e2 : (a ++ t ++ 0 :: rest).drop (a.length + p.length + (t.length + 1)) = rest.drop p.length := by
    rw [List.drop_append, List.drop_eq_nil_of_le (by simp; omega), List.length_append,
      show a.length + p.length + (t.length + 1) - (a.length + t.length) = p.length + 1 by omega]
    rfl
  rw [e1, e2, if_pos (Nat.le_refl _)]
  have e3 : ((a ++ t ++ 0 :: rest).take (a.length + p.length)).length = a.length + p.length := by
    rw [List.length_take]; omega
  rw [if_pos (by rw [List.length_append, List.length_append, e3]; omega)]
  congr 1
  have e4 : (a ++ t ++ 0 :: rest).take (a.length + p.length) = a ++ (t ++ 0 :: rest).take p.length := by
    rw [List.append_assoc, List.take_append, List.take_of_length_le (by omega), show a.length + p.length - a.length = p.length by omega]
  have e5 : ((t ++ 0 :: rest).take p.length).length = p.length := by
    rw [List.length_take]
    simp; omega
  rw [e4, List.take_of_length_le (Nat.le_refl p.length)]
  have e6 : (a ++ (t ++ 0 :: rest).take p.length).length = a.length + p.length := by rw [List.length_append, e5]
  generalize (t ++ 0 :: rest).take p.length = u at e6 ⊢
  have e7 : (a ++ u ++ (t ++ [0]) ++ rest.drop p.length).take a.length = a := by
    rw [List.append_assoc, List.append_assoc, List.take_left' rfl]
  have e8 : (a ++ u ++ (t ++ [0]) ++ rest.drop p.length).drop (a.length + p.length) = t ++ [0] ++ rest.drop p.length := by
    rw [List.append_assoc (a ++ u), List.drop_left' e6]
  rw [e7, e8]
  simp

/-- Without the room for the terminator the move runs over the end. -/
theorem insert_over (a p t rest : List Nat) (dst n : Nat) (hn : n = t.length + 1) (hd : dst = a.length + p.length)
    (h : rest.length < p.length) :
    (do
      let r ← memmoveIn (a ++ t ++ 0 :: rest) dst a.length n
      memcpyTo r a.length p p.length) = .error .oobWrite := by
  subst hn hd
  have hlen : (a ++ t ++ 0 :: rest).length = a.length + t.length + 1 + rest.length := by simp; omega
  unfold memmoveIn
  rw [if_pos (by omega), if_neg (by omega)]
  rfl

theorem up_ok (t rest : List Nat) : 
    (4 ≤ rest.length → (do
      let r ← memmoveIn (t ++ 0 :: rest) 4 0 (t.length + 1)
      memcpyTo r 0 preUni 4) = .ok (uni ++ t ++ 0 :: rest.drop 4)) ∧
    (rest.length < 4 → (do
      let r ← memmoveIn (t ++ 0 :: rest) 4 0 (t.length + 1)
      memcpyTo r 0 preUni 4) = .error .oobWrite) :=
  ⟨fun h => insert_ok [] preUni t rest 4 (t.length + 1) rfl rfl h, fun h => insert_over [] preUni t rest 4 (t.length + 1) rfl rfl h⟩

theorem unc_ok (t rest : List Nat) :
    (4 ≤ rest.length → (do
      let r ← memmoveIn (uni ++ t ++ 0 :: rest) 8 4 ((uni ++ t).length + 1 - 4)
      memcpyTo r 4 [85, 78, 67, 92] 4) = .ok (unc ++ t ++ 0 :: rest.drop 4)) ∧
    (rest.length < 4 → (do
      let r ← memmoveIn (uni ++ t ++ 0 :: rest) 8 4 ((uni ++ t).length + 1 - 4)
      memcpyTo r 4 [85, 78, 67, 92] 4) = .error .oobWrite) :=
  ⟨fun h => insert_ok uni [85, 78, 67, 92] t rest 8 _ (by simp [uni]) rfl h,
    fun h => insert_over uni [85, 78, 67, 92] t rest 8 _ (by simp [uni]) rfl h⟩

theorem net_ok (t rest : List Nat) :
    (6 ≤ rest.length → (do
      let r ← memmoveIn ([92, 92] ++ t ++ 0 :: rest) 7 1 (([92, 92] ++ t).length + 1 - 1)
      memcpyTo r 1 [92, 63, 92, 85, 78, 67] 6) = .ok (unc ++ t ++ 0 :: rest.drop 6)) ∧
    (rest.length < 6 → (do
      let r ← memmoveIn ([92, 92] ++ t ++ 0 :: rest) 7 1 (([92, 92] ++ t).length + 1 - 1)
      memcpyTo r 1 [92, 63, 92, 85, 78, 67] 6) = .error .oobWrite) :=
  ⟨fun h => insert_ok [92] [92, 63, 92, 85, 78, 67] (92 :: t) rest 7 _ (by simp) rfl h,
    fun h => insert_over [92] [92, 63, 92, 85, 78, 67] (92 :: t) rest 7 _ (by simp) rfl h⟩

theorem drive_upper {s : List Nat} (h : Drive s) : ∃ c r, upperDrive s = c :: 58 :: r := by
  unfold upperDrive
  rw [if_pos h]
  match s, h with
  | c :: d :: r, h => exact ⟨_, r, by rw [upperFirst, h.2]⟩

theorem not_volume {a t : List Nat} {c d : Nat} (ha : a.length = 4) (h : d ≠ 111) : ¬ preUniVolume <+: a ++ c :: d :: t := by
  intro hp
  match a, ha with
  | [a1, a2, a3, a4], _ =>
    simp only [preUniVolume, List.cons_append, List.nil_append, List.cons_prefix_cons] at hp
    omega

/-- The last step, for a name the code accepts. -/
theorem prefixes_ok (reg : List Nat → Option Nat) (s rest : List Nat) (size : Nat) (hv : ¬ vol <+: s)
    (hs : s.length + 1 ≤ size) (hb : size ≤ (lifted s ++ 0 :: rest).length) (h4 : size ≠ s.length + 4) (h6 : size ≠ s.length + 6) :
    ∃ ok r, prefixes reg s.length size (decide (Drive (s.drop (root s)) ∨ vol <+: s)) (decide (Begins unc s))
        (decide (Begins unc s ∨ uni <+: s)) (lifted s ++ 0 :: rest) = .ok (ok, r) ∧
      r.length = (lifted s ++ 0 :: rest).length ∧ (ok = true ↔ (codeNormal s).length + 1 ≤ size) ∧
      (ok = true → ∃ k, r = codeNormal s ++ 0 :: rest.drop k) := by
  have hll := lifted_len s
  have hlen : (lifted s ++ 0 :: rest).length = s.length + 1 + rest.length := by simp; omega
  rw [hlen] at hb ⊢
  unfold prefixes codeNormal
  by_cases hu : Begins unc s
  · have hroot : root s = 8 := by unfold root; rw [if_pos hu]
    have hsl := begins_len hu
    have hl : lifted s = s.take 8 ++ upperDrive (s.drop 8) := by unfold lifted; rw [hroot]
    rw [if_pos hu, ← hl]
    have hnv : ¬ preUniVolume <+: lifted s := by
      rintro ⟨q, hq⟩
      have h1 : (lifted s)[4]? = s[4]? := by
        rw [hl, List.getElem?_append_left (by rw [List.length_take]; simp [unc] at hsl; omega), List.getElem?_take, if_pos (by omega)]
      rw [← hq] at h1
      have h2 : s[4]? = some 86 := by rw [← h1]; rfl
      obtain ⟨q', hq'⟩ := hu
      have h3 : (s.map fold)[4]? = some 117 := by rw [← hq']; rfl
      rw [List.getElem?_map, h2] at h3
      simp [fold] at h3
    rw [decide_eq_true hu, decide_eq_true (show Begins unc s ∨ uni <+: s from .inl hu)]
    simp only [Bool.not_true, Bool.false_eq_true, if_false]
    have hres : ∃ ok r, (.ok (true, lifted s ++ 0 :: rest) : CRes (Bool × List Nat)) = .ok (ok, r) ∧
        r.length = s.length + 1 + rest.length ∧ (ok = true ↔ (lifted s).length + 1 ≤ size) ∧ (ok = true → ∃ k, r = lifted s ++ 0 :: rest.drop k) :=
      ⟨_, _, rfl, hlen, ⟨fun _ => by omega, fun _ => rfl⟩, fun _ => ⟨0, rfl⟩⟩
    split
    · rw [volume_none reg _ _ _ (by simp [unc] at hsl; omega) hnv, ok_bind]
      exact hres
    · exact hres
  · rw [if_neg hu, decide_eq_false hu]
    by_cases hn : uni <+: s
    · have hroot : root s = 4 := by unfold root; rw [if_neg hu, if_pos hn]
      obtain ⟨t, rfl⟩ := hn
      have hl : lifted (uni ++ t) = uni ++ upperDrive t := by
        unfold lifted
        rw [hroot]
        rfl
      have hd4 : (uni ++ t).drop 4 = t := rfl
      rw [if_pos (List.prefix_append _ _), decide_eq_true (show Begins unc (uni ++ t) ∨ uni <+: uni ++ t from .inr (List.prefix_append _ _)),
        hl, hroot, hd4]
      rw [hl] at hll hlen
      by_cases hd : Drive t
      · rw [decide_eq_true (.inl hd), if_pos hd]
        simp only [Bool.not_true, Bool.false_eq_true, if_false, if_true]
        obtain ⟨c, r, hc⟩ := drive_upper hd
        rw [hc] at hll hlen ⊢
        rw [volume_none reg _ _ _ (by simp [uni]) (not_volume rfl (by decide)), ok_bind]
        exact ⟨_, _, rfl, by rw [hlen], ⟨fun _ => by omega, fun _ => rfl⟩, fun _ => ⟨0, rfl⟩⟩
      · have hup : upperDrive t = t := by unfold upperDrive; rw [if_neg hd]
        rw [decide_eq_false (show ¬ (Drive t ∨ vol <+: uni ++ t) by rintro (h | h); exact hd h; exact hv h), if_neg hd, hup]
        simp only [Bool.not_false, Bool.false_eq_true, if_false, if_true]
        by_cases hsz : (uni ++ t).length + 4 > size
        · rw [if_pos hsz]
          refine ⟨_, _, rfl, by rw [hup] at hlen; exact hlen, ⟨(fun h => nomatch h), fun h => ?_⟩, (fun h => nomatch h)⟩
          simp [unc, uni] at h hsz
          omega
        · rw [if_neg hsz]
          have := (unc_ok t rest).1 (by omega)
          rw [← bind_assoc, this, ok_bind]
          refine ⟨_, _, rfl, ?_, ⟨fun _ => ?_, fun _ => rfl⟩, fun _ => ⟨4, rfl⟩⟩
          · simp [unc, uni]; omega
          · simp [unc, uni] at hsz h4 ⊢; omega
    · rw [if_neg hn, decide_eq_false (show ¬ (Begins unc s ∨ uni <+: s) by rintro (h | h); exact hu h; exact hn h)]
      have hroot : root s = 0 := by unfold root; rw [if_neg hu, if_neg hn]
      have hl : lifted s = upperDrive s := by
        unfold lifted
        rw [hroot]
        rfl
      rw [hroot, List.drop_zero, hl]
      rw [hl] at hll hlen
      by_cases hd : Drive s
      · rw [decide_eq_true (.inl hd), if_pos hd]
        simp only [Bool.not_false, if_true]
        by_cases hsz : s.length + 4 > size
        · rw [if_pos hsz]
          refine ⟨_, _, rfl, hlen, ⟨(fun h => nomatch h), fun h => ?_⟩, (fun h => nomatch h)⟩
          simp [uni] at h
          omega
        · rw [if_neg hsz]
          have := (up_ok (upperDrive s) rest).1 (by omega)
          rw [← hll, ← bind_assoc, this, ok_bind]
          obtain ⟨c, r, hc⟩ := drive_upper hd
          rw [hc, volume_none reg _ _ _ (by simp [uni]) (not_volume rfl (by decide)), ok_bind]
          rw [hc] at hll
          refine ⟨_, _, rfl, ?_, ⟨fun _ => ?_, fun _ => rfl⟩, fun _ => ⟨4, rfl⟩⟩
          · simp [uni] at hll ⊢; omega
          · simp [uni] at hll ⊢; omega
      · have hup : upperDrive s = s := by unfold upperDrive; rw [if_neg hd]
        rw [decide_eq_false (show ¬ (Drive s ∨ vol <+: s) by rintro (h | h); exact hd h; exact hv h), if_neg hd, hup]
        simp only [Bool.not_false, Bool.false_eq_true, if_false, if_true]
        rw [at_ok s rest _ 0 (by decide) (Nat.zero_le _), ok_bind, List.drop_zero]
        by_cases hnet : [92, 92] <+: s
        · obtain ⟨t, rfl⟩ := hnet
          rw [decide_eq_true (List.prefix_append _ _), if_pos rfl, if_pos (List.prefix_append _ _)]
          by_cases hsz : ([92, 92] ++ t).length + 6 > size
          · rw [if_pos hsz]
            refine ⟨_, _, rfl, by rw [hup] at hlen; exact hlen, ⟨(fun h => nomatch h), fun h => ?_⟩, (fun h => nomatch h)⟩
            simp [unc] at h hsz
            omega
          · rw [if_neg hsz]
            have := (net_ok t rest).1 (by omega)
            rw [← bind_assoc, this, ok_bind]
            refine ⟨_, _, rfl, ?_, ⟨fun _ => ?_, fun _ => rfl⟩, fun _ => ⟨6, rfl⟩⟩
            · simp [unc]; omega
            · simp [unc] at hsz h6 ⊢; omega
        · rw [decide_eq_false hnet, if_neg hnet]
          exact ⟨_, _, rfl, by rw [hup] at hlen; exact hlen, ⟨fun _ => hs, fun _ => rfl⟩, fun _ => ⟨0, rfl⟩⟩

end Verif.WinPath
