import Verif.Json.Doc

/-! # Properties C07–C13 of `JSON::Serializer` -/

namespace Verif.Json
open Spec

/-! ## Histories -/

/-- One legal call in any reachable state. -/
theorem step_all (real : List UInt8 → Rat) {s : S} {b : Builder} (R : Rel s b) (c : Call) (hl : Legal c) :
    ∃ r s' b', step s c = .ok (r, s') ∧ Rel s' b' ∧ s'.modes.length = s.modes.length ∧
      (∀ cs rs b'', Describes real b' cs rs b'' → Describes real b (c :: cs) (r :: rs) b'') ∧
      (r = true → b' = b.call real c) ∧ (r = false → c ≠ .finish → s' = s ∧ b' = b) ∧
      (AddsText c → r = true → Term s') ∧ (c = .finish → Term s → Term s') := by
  by_cases hf : c = .finish
  · subst hf
    obtain ⟨r, s', j, hx, hj, hR, hA, hT, h0, ht, hfl⟩ := finish_spec R
    refine ⟨r, s', _, hx, hR, hA.depthCap, ?_, ?_, (fun _ h => absurd rfl h), (fun h => h.elim), ?_⟩
    · intro cs rs b'' hd
      cases r with
      | false => exact .failedFinish (hfl rfl).1 hd
      | true =>
        have := ht rfl
        subst this
        exact .ok hd
    · intro h; rw [ht h]; rfl
    · intro _ hterm
      by_cases hj0 : j = 0
      · rw [h0 hj0]; exact hterm
      · exact hT (by omega)
  · by_cases ha : AddsText c
    · obtain ⟨r, s', hx, hfl, htr, -⟩ := step_good real R c hl ha
      cases r with
      | false =>
        have hs := hfl rfl
        subst hs
        exact ⟨false, s', b, hx, R, rfl, fun cs rs b'' hd => .failed hf hd, (fun h => nomatch h),
          fun _ _ => ⟨rfl, rfl⟩, (fun _ h => nomatch h), fun h => absurd h hf⟩
      | true =>
        obtain ⟨-, hR, hA, hT⟩ := htr rfl
        exact ⟨true, s', _, hx, hR, hA.depthCap, fun cs rs b'' hd => .ok hd, fun _ => rfl, (fun h => nomatch h),
          fun _ _ => hT, fun h => absurd h hf⟩
    · obtain ⟨s', hx, hR, hm⟩ := step_other real R c hl ha hf
      exact ⟨true, s', _, hx, hR, hm, fun cs rs b'' hd => .ok hd, fun _ => rfl, (fun h => nomatch h),
        fun h => absurd h ha, fun h => absurd h hf⟩

theorem written_false_mono : ∀ (cs : List Call) (rs : List Bool) (w w' : Prop), (w → w') →
    Written w cs rs → Written w' cs rs
  | [], rs, w, w', h, hw => by cases rs <;> exact h hw
  | c :: cs, [], w, w', h, hw => by cases c <;> exact h hw
  | c :: cs, r :: rs, w, w', h, hw => by
    cases c <;> first
      | exact hw
      | exact written_false_mono cs rs _ _ (fun h' => h'.imp h id) hw

theorem run_all (real : List UInt8 → Rat) : ∀ (cs : List Call) (s : S) (b : Builder) (saved : List UInt8) (w : Prop),
    Rel s b → (∀ c ∈ cs, Legal c) → (w → Term s) →
    ∃ rs s' saved' b', run s saved cs = .ok (rs, s', saved') ∧ rs.length = cs.length ∧ Rel s' b' ∧
      s'.modes.length = s.modes.length ∧ Describes real b cs rs b' ∧ (Written w cs rs → Term s')
  | [], s, b, saved, w, R, _, hw => ⟨[], s, saved, b, rfl, rfl, R, rfl, .nil, fun h => hw (by
      unfold Written at h; exact h)⟩
  | c :: cs, s, b, saved, w, R, hl, hw => by
    obtain ⟨r, s1, b1, hx, R1, hm1, hd1, h1, h2, h3, h4⟩ := step_all real R c (hl c (by simp))
    obtain ⟨rs, s', saved', b', hy, hlen, R', hm', hd', hW⟩ := run_all real cs s1 b1 (save saved s c)
      (match c with
       | .setBuffer _ | .resetPos | .reset => False
       | c => w ∨ (AddsText c ∧ r = true)) R1 (fun c hc => hl c (by simp [hc])) (by
        intro hh
        have key : (w ∨ (AddsText c ∧ r = true)) → (c = .finish ∨ AddsText c ∨ s1.buf = s.buf ∧ s1.pos = s.pos) →
            Term s1 := by
          intro h h'
          rcases h with h | ⟨h, hr⟩
          · rcases h' with h' | h' | ⟨h5, h6⟩
            · exact h4 h' (hw h)
            · cases r with
              | true => exact h3 h' rfl
              | false =>
                have hne : c ≠ .finish := by rintro rfl; exact h'.elim
                rw [(h2 rfl hne).1]; exact hw h
            · obtain ⟨m, hm, hp⟩ := hw h
              exact ⟨m, by rw [h5]; exact hm, by rw [h6]; exact hp⟩
          · exact h3 h hr
        cases c with
        | setBuffer _ => exact hh.elim
        | resetPos => exact hh.elim
        | reset => exact hh.elim
        | setEscapeSlashes e =>
          refine key hh (Or.inr (Or.inr ?_))
          cases hx; exact ⟨rfl, rfl⟩
        | setKeySplitter e =>
          refine key hh (Or.inr (Or.inr ?_))
          cases hx; exact ⟨rfl, rfl⟩
        | setValSplitter e =>
          refine key hh (Or.inr (Or.inr ?_))
          cases hx; exact ⟨rfl, rfl⟩
        | finish => exact key hh (Or.inl rfl)
        | _ => exact key hh (Or.inr (Or.inl trivial)))
    refine ⟨r :: rs, s', saved', b', ?_, by simp [hlen], R', hm'.trans hm1, hd1 _ _ _ hd', ?_⟩
    · simp [run, hx, hy]
    · intro h
      refine hW ?_
      cases c <;> exact h

/-- Construction and the first `SetBuffer`. -/
theorem start_rel {esc : Bool} {ks vs : List UInt8} {maxDepth : Nat} {junk : Mode} {s0 : S} {b0 : List UInt8}
    (h0 : construct esc ks vs maxDepth junk = .ok s0) (hb : Legal (.setBuffer b0)) :
    Rel (setBuffer s0 b0) Builder.start ∧ s0.modes.length = maxDepth ∧ s0.esc = esc ∧ s0.ks = cstr ks ∧
      s0.vs = cstr vs ∧ text s0 = [] := by
  match maxDepth, h0 with
  | 0, h0 => simp [construct, wr] at h0
  | n + 1, h0 =>
    have e : s0 = { modes := .rootFirst :: List.replicate n junk, depth := 0, buf := none, pos := 0, size := 0, esc := esc, ks := cstr ks, vs := cstr vs } := by
      simp only [construct, wr, List.length_replicate, Nat.zero_lt_succ, if_true, ok_bind] at h0
      cases h0
      simp [List.replicate_succ]
    subst e
    obtain ⟨h1, h2⟩ := hb
    have hpos : 0 < b0.length := List.length_pos_iff.2 h1
    refine ⟨⟨⟨⟨b0, rfl, ?_⟩, Nat.zero_le _, by simp [setBuffer]⟩, ⟨trivial, fun h => absurd rfl h⟩, ⟨_, rfl⟩, rfl⟩,
      by simp, rfl, rfl, rfl, rfl⟩
    show b0.length = (b0.length + (2 ^ 64 - 1)) % 2 ^ 64 + 1
    omega

/-- Any legal history from construction on. -/
theorem history (real : List UInt8 → Rat) {esc : Bool} {ks vs : List UInt8} {maxDepth : Nat} {junk : Mode} {s0 : S}
    {b0 : List UInt8} (h0 : construct esc ks vs maxDepth junk = .ok s0) (hb : Legal (.setBuffer b0))
    {cs : List Call} (hl : ∀ c ∈ cs, Legal c) :
    ∃ rs s saved b, run s0 [] (.setBuffer b0 :: cs) = .ok (true :: rs, s, saved) ∧ rs.length = cs.length ∧ Rel s b ∧
      s.modes.length = maxDepth ∧ Describes real Builder.start cs rs b ∧
      (Written False cs rs → Term s) := by
  obtain ⟨R, hm, -, -, -, -⟩ := start_rel h0 hb
  obtain ⟨rs, s, saved, b, h1, h2, h3, h4, h5, h6⟩ := run_all real cs _ _ ([] ++ text s0) False R hl (fun h => h.elim)
  refine ⟨rs, s, saved, b, ?_, h2, h3, by rw [h4]; exact hm, h5, h6⟩
  rw [List.nil_append] at h1
  simp [run, step, save, h1]

/-! ## C07 -/

/-- **C07** (partial: the `Legal` restriction on `AppendStr` with a size and on the minimum integer; terminated once
something has been written since the position was reset).  Every legal history runs without touching memory outside
the buffer, whatever the depth, buffers, splitters and arguments. -/
theorem writes_stay_inside_partial {esc : Bool} {ks vs : List UInt8} {maxDepth : Nat} {junk : Mode} {s0 : S}
    {b0 : List UInt8} (h0 : construct esc ks vs maxDepth junk = .ok s0) (hb : Legal (.setBuffer b0))
    {cs : List Call} (hl : ∀ c ∈ cs, Legal c) :
    ∃ rs s saved, run s0 [] (.setBuffer b0 :: cs) = .ok (rs, s, saved) ∧ rs.length = cs.length + 1 ∧
      (∃ m, s.buf = some m ∧ s.pos < m.length) ∧ (Written False (.setBuffer b0 :: cs) rs → Terminated s) := by
  obtain ⟨rs, s, saved, b, h1, h2, h3, -, -, h6⟩ := history (fun _ => 0) h0 hb hl
  refine ⟨_, s, saved, h1, by simp [h2], ?_, h6⟩
  obtain ⟨m, hm, hlen⟩ := h3.wf.buf
  have := h3.wf.pos
  exact ⟨m, hm, by omega⟩

/-- A history for the theorem: an object with a member, written into 16 bytes. -/
example : ∃ s0 rs s saved, construct true [58] [44] 3 .str = .ok s0 ∧ run s0 []
    [.setBuffer (List.replicate 16 7), .startObject none, .appendInt (some [97]) (-5), .finish] =
      .ok (rs, s, saved) ∧ rs = [true, true, true, true] ∧ text s = [123, 34, 97, 34, 58, 45, 53, 125] :=
  ⟨_, _, _, _, rfl, rfl, by decide, by decide⟩

/-- The restriction is needed: the sized `AppendStr` measures only the first character and runs over the end of an
8-byte buffer. -/
theorem sized_append_overflows :
    ∃ s0, construct true [58] [44] 3 .str = .ok s0 ∧
      run s0 [] [.setBuffer (List.replicate 8 0), .appendStrN none (some [97, 34, 34, 34, 34]) 5] =
        .error .oobWrite := ⟨_, rfl, by decide⟩

/-- `ResetPos` leaves the position at text that is not terminated there. -/
theorem resetPos_not_terminated :
    ∃ s0 rs s saved, construct true [58] [44] 3 .str = .ok s0 ∧
      run s0 [] [.setBuffer (List.replicate 8 7), .appendNull none, .resetPos] = .ok (rs, s, saved) ∧
      s.pos = 0 ∧ s.buf = some [110, 117, 108, 108, 0, 7, 7, 7] := ⟨_, _, _, _, rfl, rfl, by decide, by decide⟩

/-- A serializer with no depth cannot even be constructed. -/
theorem zero_depth_undefined (esc : Bool) (ks vs : List UInt8) (junk : Mode) :
    construct esc ks vs 0 junk = .error .oobWrite := rfl

/-! ## C08 -/

theorem nextPrefix_false {s s' : S} {key : Option (List UInt8)} {n : Nat}
    (h : nextPrefix s key n = .ok (false, s')) : s' = s := by
  unfold nextPrefix at h
  cases hm : curMode s with
  | error e => simp [hm] at h
  | ok m =>
    simp only [hm, ok_bind] at h
    split at h
    · cases h; rfl
    · cases hx : prefixSize s m key with
      | error e => simp [hx] at h
      | ok x =>
        simp only [hx, ok_bind] at h
        split at h
        · cases h; rfl
        · cases h1 : splitOrMark s m with
          | error e => simp [h1] at h
          | ok s1 =>
            cases h2 : putKey s1 key with
            | error e => simp [h1, h2] at h
            | ok s2 => simp [h1, h2] at h

theorem appendText_false {s s' : S} {key : Option (List UInt8)} {n : Nat} {t : List UInt8}
    (h : appendText s key n t = .ok (false, s')) : s' = s := by
  unfold appendText at h
  cases hx : nextPrefix s key n with
  | error e => simp [hx] at h
  | ok r =>
    obtain ⟨ok, s1⟩ := r
    cases ok with
    | false =>
      simp only [hx, ok_bind, Bool.false_eq_true, if_false] at h
      cases h; exact nextPrefix_false hx
    | true =>
      simp only [hx, ok_bind, if_true] at h
      cases h1 : strcpyAt s1 t with
      | error e => simp [h1] at h
      | ok s2 => simp [h1] at h

theorem start_false {s s' : S} {key : Option (List UInt8)} {c : UInt8} {m : Mode}
    (h : start s key c m = .ok (false, s')) : s' = s := by
  unfold start at h
  split at h
  · cases h; rfl
  · cases hx : nextPrefix s key 1 with
    | error e => simp [hx] at h
    | ok r =>
      obtain ⟨ok, s1⟩ := r
      cases ok with
      | false =>
        simp only [hx, ok_bind, Bool.false_eq_true, if_false] at h
        cases h; exact nextPrefix_false hx
      | true =>
        simp only [hx, ok_bind, if_true] at h
        cases h1 : put s1 c with
        | error e => simp [h1] at h
        | ok s2 =>
          cases h2 : term s2 with
          | error e => simp [h1, h2] at h
          | ok s3 =>
            simp only [h1, h2, ok_bind] at h
            cases h3 : setMode { s3 with depth := s3.depth + 1 } m with
            | error e => simp [h3] at h
            | ok s4 => simp [h3] at h

theorem close_false {s s' : S} {m1 m2 : Mode} {c : UInt8} (h : close s m1 m2 c = .ok (false, s')) : s' = s := by
  unfold close at h
  cases hm : curMode s with
  | error e => simp [hm] at h
  | ok m =>
    simp only [hm, ok_bind] at h
    split at h
    · cases h; rfl
    · split at h
      · cases h; rfl
      · cases h1 : put s c with
        | error e => simp [h1] at h
        | ok s2 =>
          cases h2 : term s2 with
          | error e => simp [h1, h2] at h
          | ok s3 => simp [h1, h2] at h

theorem str_false {s s' : S} {key : Option (List UInt8)} {n : Nat} {m : Mode} {f : S → CRes S}
    (h : (if m ≠ .str then do
        let (ok, s') ← nextPrefix s key n
        if ok then do
          let s' ← f s'
          .ok (true, s')
        else .ok (false, s')
      else if s.pos + n > s.size then .ok (false, s)
      else do
        let s ← f s
        .ok (true, s)) = (.ok (false, s') : CRes (Bool × S))) : s' = s := by
  split at h
  · cases hx : nextPrefix s key n with
    | error e => simp [hx] at h
    | ok r =>
      obtain ⟨ok, s1⟩ := r
      cases ok with
      | false =>
        simp only [hx, ok_bind, Bool.false_eq_true, if_false] at h
        cases h; exact nextPrefix_false hx
      | true =>
        simp only [hx, ok_bind, if_true] at h
        cases h1 : f s1 with
        | error e => simp [h1] at h
        | ok s2 => simp [h1] at h
  · split at h
    · cases h; rfl
    · cases h1 : f s with
      | error e => simp [h1] at h
      | ok s2 => simp [h1] at h

/-- **C08** (partial: `Finish` is excluded).  In every state whatsoever, a call that returns `false` leaves the whole
object (buffer contents, position, depth, modes, settings) as it was. -/
theorem failed_call_no_effect_partial (s s' : S) (c : Call) (hc : c ≠ .finish) (h : step s c = .ok (false, s')) :
    s' = s := by
  cases c with
  | setBuffer _ => cases h
  | resetPos => cases h
  | reset =>
    simp only [step] at h
    cases h1 : reset s with
    | error e => simp [h1] at h
    | ok s2 => simp [h1] at h
  | setEscapeSlashes _ => cases h
  | setKeySplitter _ => cases h
  | setValSplitter _ => cases h
  | startObject k => exact start_false h
  | startArray k => exact start_false h
  | startStr k => exact start_false h
  | endObject => exact close_false h
  | endArray => exact close_false h
  | endStr => exact close_false h
  | appendNull k => exact appendText_false h
  | appendBool k v => exact appendText_false h
  | appendInt k v =>
    simp only [step, appendInt] at h
    cases h1 : intToStringI (List.replicate 44 0) v with
    | error e => rw [h1] at h; simp at h
    | ok r =>
      obtain ⟨ok, t⟩ := r
      rw [h1] at h
      cases ok with
      | false => simp only [ok_bind, Bool.false_eq_true, if_false] at h; cases h; rfl
      | true => simp only [ok_bind, if_true] at h; exact appendText_false h
  | appendUInt k v =>
    simp only [step, appendUInt] at h
    cases h1 : intToStringU (List.replicate 44 0) v with
    | error e => rw [h1] at h; simp at h
    | ok r =>
      obtain ⟨ok, t⟩ := r
      rw [h1] at h
      cases ok with
      | false => simp only [ok_bind, Bool.false_eq_true, if_false] at h; cases h; rfl
      | true => simp only [ok_bind, if_true] at h; exact appendText_false h
  | appendDouble k t => exact appendText_false h
  | appendStr k v =>
    cases v with
    | none => cases h; rfl
    | some v =>
      simp only [step, appendStr] at h
      cases h1 : calcStrSize s v false with
      | error e => simp [h1] at h
      | ok x =>
        cases h2 : curMode s with
        | error e => simp [h1, h2] at h
        | ok m =>
          simp only [h1, h2, ok_bind] at h
          exact str_false (m := m) (n := x) (key := k) (f := fun s => internalAppendStr s v) h
  | appendStrN k v n =>
    cases v with
    | none => cases h; rfl
    | some v =>
      simp only [step, appendStrN] at h
      cases h1 : calcStrSizeN s v n false with
      | error e => simp [h1] at h
      | ok x =>
        cases h2 : curMode s with
        | error e => simp [h1, h2] at h
        | ok m =>
          simp only [h1, h2, ok_bind] at h
          exact str_false (m := m) (n := x) (key := k) (f := fun s => internalAppendStrN s v n) h
  | append v n =>
    simp only [step, append] at h
    split at h
    · cases h; rfl
    · cases v with
      | none => cases h; rfl
      | some v =>
        simp only at h
        cases h1 : appendCopy s v n 0 with
        | error e => simp [h1] at h
        | ok s1 =>
          cases h2 : term s1 with
          | error e => simp [h1, h2] at h
          | ok s2 => simp [h1, h2] at h
  | finish => exact absurd rfl hc

/-- A failing call: a second root value. -/
example : ∃ s0 s, construct true [58] [44] 3 .str = .ok s0 ∧
    run s0 [] [.setBuffer (List.replicate 16 7), .appendNull none] = .ok ([true, true], s, []) ∧
    step s (.appendBool none true) = .ok (false, s) := ⟨_, _, rfl, rfl, by decide⟩

/-- `Finish` is different: it closes what fits and then reports failure. -/
theorem failed_finish_changes_text :
    ∃ s0 s s', construct true [58] [44] 3 .str = .ok s0 ∧
      run s0 [] [.setBuffer (List.replicate 4 7), .startArray none, .startArray none] = .ok ([true, true, true], s, []) ∧
      step s .finish = .ok (false, s') ∧ text s = [91, 91] ∧ text s' = [91, 91, 93] :=
  ⟨_, _, _, rfl, rfl, rfl, by decide, by decide⟩

/-! ## C09 -/

/-- White space in the sense of the grammar and properly set splitters. -/
structure JInv (s : S) (b : Builder) (saved : List UInt8) : Prop where
  rel : Rel s b
  ks : Splitter 58 s.ks
  vs : Splitter 44 s.vs
  inv : Inv b (saved ++ text s)

theorem pre_val {s s' : S} {b : Builder} {saved V : List UInt8} {v : J} {key : Option (List UInt8)}
    (I : JInv s b saved) (ha : b.ValueAllowed key) (hk : CleanKey s.esc key)
    (hA : Ad s s' (sepText s (headMode b) ++ keyText s key ++ V)) (hv : Val V v) :
    Inv (b.add (keyOf key) v) (saved ++ text s') := by
  have := attach (inv_prefix ha hk I.ks I.vs I.inv) hv
  rw [hA.text]
  simpa using this

theorem pre_push {s s' : S} {b : Builder} {saved : List UInt8} {c : UInt8} {sc : Scope} {key : Option (List UInt8)}
    (I : JInv s b saved) (ha : b.ValueAllowed key) (hk : CleanKey s.esc key)
    (hA : Ad s s' (sepText s (headMode b) ++ keyText s key ++ [c]))
    (hsc : ∀ P, Pre b.opened (keyOf key) P → Inv (b.push (keyOf key) sc) (P ++ [c])) :
    Inv (b.push (keyOf key) sc) (saved ++ text s') := by
  have := hsc _ (inv_prefix ha hk I.ks I.vs I.inv)
  rw [hA.text]
  simpa using this

theorem addStr_inv {s s' : S} {b : Builder} {saved B d : List UInt8} {key : Option (List UInt8)}
    (I : JInv s b saved) (ha : b.InStr ∨ b.ValueAllowed key) (hk : CleanKey s.esc key) (hB : StrBody B d)
    (hA : Ad s s' (if headMode b = .str then B else sepText s (headMode b) ++ keyText s key ++ (34 :: B ++ [34]))) :
    Inv (b.addStr (keyOf key) d) (saved ++ text s') := by
  by_cases hs : b.InStr
  · rw [if_pos ((headMode_str b).2 hs)] at hA
    obtain ⟨k, d0, rest, ho⟩ := hs
    have he : b.addStr (keyOf key) d = { b with opened := (k, .str (d0 ++ d)) :: rest } := by
      unfold Builder.addStr; rw [ho]
    rw [he, hA.text, ← List.append_assoc]
    exact inv_str ho I.inv hB
  · rw [if_neg (fun h => hs ((headMode_str b).1 h))] at hA
    have he : b.addStr (keyOf key) d = b.add (keyOf key) (.str d) := by
      unfold Builder.addStr
      split
      · rename_i k d0 rest ho
        exact absurd ⟨k, d0, rest, ho⟩ hs
      · rfl
    rw [he]
    exact pre_val I (ha.resolve_left hs) hk hA (.str hB)

theorem closeAll_inv : ∀ (n : Nat) (b : Builder) (T : List UInt8), n ≤ b.opened.length → Inv b T →
    Inv (Builder.closeAll n b) (T ++ (closers b).take n)
  | 0, b, T, _, h => by simpa [Builder.closeAll] using h
  | n + 1, b, T, hn, h => by
    match ho : b.opened with
    | [] => rw [ho] at hn; simp at hn
    | (k, sc) :: rest =>
      have hl := close_length (b := b) (by simp [ho])
      have hc := close_closers ho
      have := closeAll_inv n b.close (T ++ [closer sc]) (by omega) (inv_close ho h)
      rw [hc]
      simpa [Builder.closeAll] using this

/-- One call keeps the text in step with the document. -/
theorem step_json (real : List UInt8 → Rat) {s : S} {b : Builder} {saved : List UInt8} (I : JInv s b saved) (c : Call)
    (hl : Legal c) (hj : JsonUse real s.esc b c) {r : Bool} {s' : S} (hx : step s c = .ok (r, s'))
    (hf : c = .finish → r = true) :
    JInv s' (if r then b.call real c else b) (save saved s c) ∧ s'.esc = escAfter s.esc c := by
  by_cases ha : AddsText c
  · obtain ⟨r1, s1, hx1, hfl, htr, -⟩ := step_good real I.rel c hl ha
    rw [hx1] at hx
    cases hx
    have hsave : save saved s c = saved := by
      cases c <;> first | rfl | exact ha.elim
    have hesc : escAfter s.esc c = s.esc := by
      cases c <;> first | rfl | exact ha.elim
    rw [hsave, hesc]
    cases r with
    | false =>
      have := hfl rfl
      subst this
      exact ⟨I, rfl⟩
    | true =>
      obtain ⟨hal, hR, hA, -⟩ := htr rfl
      refine ⟨⟨hR, by rw [hA.ks]; exact I.ks, by rw [hA.vs]; exact I.vs, ?_⟩, hA.esc⟩
      cases c with
      | setBuffer _ => exact ha.elim
      | resetPos => exact ha.elim
      | reset => exact ha.elim
      | setEscapeSlashes _ => exact ha.elim
      | setKeySplitter _ => exact ha.elim
      | setValSplitter _ => exact ha.elim
      | finish => exact ha.elim
      | startObject k =>
        exact pre_push I hal.1 hj hA (fun P hP => ⟨P, [], hP, rfl, Or.inl ⟨rfl, Ws.nil⟩⟩)
      | startArray k =>
        exact pre_push I hal.1 hj hA (fun P hP => ⟨P, [], hP, rfl, Or.inl ⟨rfl, Ws.nil⟩⟩)
      | startStr k =>
        exact pre_push I hal.1 hj hA (fun P hP => ⟨P, [], hP, rfl, .nil⟩)
      | endObject =>
        obtain ⟨k, ms, rest, ho⟩ := hal
        have := inv_close ho I.inv
        have ht : text s' = text s ++ [125] := hA.text
        rw [ht, ← List.append_assoc]; exact this
      | endArray =>
        obtain ⟨k, ms, rest, ho⟩ := hal
        have := inv_close ho I.inv
        have ht : text s' = text s ++ [93] := hA.text
        rw [ht, ← List.append_assoc]; exact this
      | endStr =>
        obtain ⟨k, ms, rest, ho⟩ := hal
        have := inv_close ho I.inv
        have ht : text s' = text s ++ [34] := hA.text
        rw [ht, ← List.append_assoc]; exact this
      | appendNull k => exact pre_val I hal hj hA .null
      | appendBool k v =>
        refine pre_val I hal hj hA ?_
        cases v
        · exact .false
        · exact .true
      | appendInt k v =>
        obtain ⟨t, e, ht⟩ := intI_ok v hl.1 hl.2
        simp only [callText, e] at hA
        exact pre_val I hal hj hA (.num (numLit_int ht))
      | appendUInt k v =>
        obtain ⟨t, rest, e, hr, h0⟩ := intU_ok 44 v (by omega) hl
        simp only [callText, e, cstr_append _ _ h0] at hA
        refine pre_val I hal hj hA (.num ?_)
        obtain ⟨ds, h1, h2⟩ := rendering_digits hr
        exact numLit_int (v := (v : Int)) ⟨ds, by simpa using h1, by
          rw [if_neg (by omega)]; simpa using h2⟩
      | appendDouble k t => exact pre_val I hal hj.1 hA (.num hj.2)
      | appendStr k v =>
        cases v with
        | none => exact absurd rfl hal.1
        | some v => exact addStr_inv I hal.2 hj.1 (strBody_flatMap hj.2) hA
      | appendStrN k v n =>
        cases v with
        | none => exact absurd rfl hal.1
        | some v => exact addStr_inv I hal.2 hj.1 (strBody_flatMap hj.2) hA
      | append v n =>
        cases v with
        | none => exact absurd rfl hal
        | some v =>
          have ht : text s' = text s ++ v.take n := hA.text
          rw [ht, ← List.append_assoc]
          show Inv (b.addRaw (v.take n)) _
          by_cases hs : b.InStr
          · obtain ⟨k, d0, rest, ho⟩ := hs
            have he : b.addRaw (v.take n) = { b with opened := (k, .str (d0 ++ v.take n)) :: rest } := by
              unfold Builder.addRaw; rw [ho]
            rw [he]
            exact inv_str ho I.inv (strBody_plain (hj.1 ⟨k, d0, rest, ho⟩))
          · have he : b.addRaw (v.take n) = b := by
              unfold Builder.addRaw
              split
              · rename_i k d0 rest ho
                exact absurd ⟨k, d0, rest, ho⟩ hs
              · rfl
            rw [he]
            exact inv_ws hs I.inv (hj.2 hs)
  · by_cases hfin : c = .finish
    · subst hfin
      obtain ⟨r1, s1, j, hx1, hjl, hR, hA, -, -, ht, -⟩ := finish_spec I.rel
      have hx' : finish s = .ok (r, s') := hx
      rw [hx1] at hx'
      cases hx'
      have hr := hf rfl
      subst hr
      have hje := ht rfl
      subst hje
      refine ⟨⟨hR, by rw [hA.ks]; exact I.ks, by rw [hA.vs]; exact I.vs, ?_⟩, hA.esc⟩
      have := closeAll_inv _ b (saved ++ text s) (Nat.le_refl _) I.inv
      rw [hA.text, ← List.append_assoc]
      exact this
    · obtain ⟨s1, hx1, hR, -⟩ := step_other real I.rel c hl ha hfin
      rw [hx1] at hx
      cases hx
      have hnil : saved ++ text s = saved ++ text s ++ [] := by simp
      cases c with
      | setBuffer m =>
        cases hx1
        refine ⟨⟨hR, I.ks, I.vs, ?_⟩, rfl⟩
        have : text (setBuffer s m) = [] := by simp [text, setBuffer]
        rw [this]
        show Inv b ((saved ++ text s) ++ [])
        rw [List.append_nil]; exact I.inv
      | resetPos =>
        cases hx1
        refine ⟨⟨hR, I.ks, I.vs, ?_⟩, rfl⟩
        have : text { s with pos := 0 } = [] := by unfold text; split <;> simp
        rw [this]
        show Inv b ((saved ++ text s) ++ [])
        rw [List.append_nil]; exact I.inv
      | reset =>
        have he : ∃ ms, s' = { s with modes := ms, depth := 0, pos := 0 } := by
          simp only [step, reset] at hx1
          cases hw : wr s.modes 0 Mode.rootFirst with
          | error e => simp [hw] at hx1
          | ok ms => simp only [hw, ok_bind] at hx1; cases hx1; exact ⟨ms, rfl⟩
        obtain ⟨ms, rfl⟩ := he
        refine ⟨⟨hR, I.ks, I.vs, ?_⟩, rfl⟩
        have : ∀ d, text { s with modes := ms, depth := d, pos := 0 } = [] := by
          intro d; unfold text; split <;> simp
        rw [this]
        exact Ws.nil
      | setEscapeSlashes e => cases hx1; exact ⟨⟨hR, I.ks, I.vs, I.inv⟩, rfl⟩
      | setKeySplitter t => cases hx1; exact ⟨⟨hR, hj, I.vs, I.inv⟩, rfl⟩
      | setValSplitter t => cases hx1; exact ⟨⟨hR, I.ks, hj, I.inv⟩, rfl⟩
      | finish => exact absurd rfl hfin
      | _ => exact absurd trivial ha

theorem run_json (real : List UInt8 → Rat) : ∀ (cs : List Call) (s : S) (b : Builder) (saved : List UInt8)
    (rs : List Bool) (s' : S) (saved' : List UInt8), JInv s b saved → (∀ c ∈ cs, Legal c) →
    run s saved cs = .ok (rs, s', saved') → JsonHistory real s.esc b cs rs →
    JInv s' (b.calls real cs rs) saved'
  | [], s, b, saved, rs, s', saved', I, _, h, _ => by
    cases h; exact I
  | c :: cs, s, b, saved, rs, s', saved', I, hl, h, hj => by
    simp only [run] at h
    cases hx : step s c with
    | error e => rw [hx] at h; simp at h
    | ok r =>
      obtain ⟨r, s1⟩ := r
      rw [hx] at h
      simp only [ok_bind] at h
      cases hy : run s1 (save saved s c) cs with
      | error e => rw [hy] at h; simp at h
      | ok q =>
        obtain ⟨rs', s2, sv2⟩ := q
        rw [hy] at h
        cases h
        obtain ⟨hj1, hj2, hj3⟩ := hj
        obtain ⟨I1, he⟩ := step_json real I c (hl c (by simp)) hj1 hx hj2
        exact run_json real cs s1 _ _ _ _ _ I1 (fun c hc => hl c (by simp [hc])) hy (by rw [he]; exact hj3)

theorem calls_append (real : List UInt8 → Rat) : ∀ (cs : List Call) (rs : List Bool) (b : Builder) (c : Call) (r : Bool),
    rs.length = cs.length →
    b.calls real (cs ++ [c]) (rs ++ [r]) = (if r then (b.calls real cs rs).call real c else b.calls real cs rs)
  | [], [], b, c, r, _ => rfl
  | c' :: cs, r' :: rs, b, c, r, h => by
    simp only [List.cons_append, Builder.calls]
    exact calls_append real cs rs _ c r (by simpa using h)
  | [], _ :: _, b, c, r, h => by simp at h
  | _ :: _, [], b, c, r, h => by simp at h

theorem closeAll_opened : ∀ (n : Nat) (b : Builder), b.opened.length = n → (Builder.closeAll n b).opened = []
  | 0, b, h => by simpa [Builder.closeAll] using h
  | n + 1, b, h => by
    have hne : b.opened ≠ [] := by intro h'; rw [h'] at h; simp at h
    exact closeAll_opened n b.close (by have := close_length hne; omega)

/-- **C09** (partial: strings must be `Clean`, raw data and splitters as JSON needs them, doubles printed as JSON
numbers — all in `JsonHistory`; the restriction of `Legal`; calls that fail are allowed too, except `Finish`).
After a successful final `Finish`, what the caller saved when switching buffers together with the buffer is a JSON text
denoting exactly the document the calls describe; if the calls describe no value, nothing but white space was
written. -/
theorem finished_text_is_document_partial (real : List UInt8 → Rat) {esc : Bool} {ks vs : List UInt8} {maxDepth : Nat}
    {junk : Mode} {s0 : S} {b0 : List UInt8} (h0 : construct esc ks vs maxDepth junk = .ok s0)
    (hb : Legal (.setBuffer b0)) (hks : Splitter 58 (cstr ks)) (hvs : Splitter 44 (cstr vs))
    {cs : List Call} (hl : ∀ c ∈ cs, Legal c) {rs : List Bool} {s : S} {saved : List UInt8}
    (hr : run s0 [] (.setBuffer b0 :: cs ++ [.finish]) = .ok (true :: rs ++ [true], s, saved))
    (hj : JsonHistory real esc Builder.start (cs ++ [.finish]) (rs ++ [true])) :
    ((Builder.start.calls real (cs ++ [.finish]) (rs ++ [true])).opened = []) ∧
    (match (Builder.start.calls real (cs ++ [.finish]) (rs ++ [true])).done with
     | some v => Text (saved ++ text s) v
     | none => Ws (saved ++ text s)) := by
  obtain ⟨R, -, he, hk, hv, ht⟩ := start_rel h0 hb
  have hrun : run (setBuffer s0 b0) ([] ++ text s0) (cs ++ [.finish]) = .ok (rs ++ [true], s, saved) := by
    simp only [List.cons_append, run, step, save, ok_bind] at hr
    cases hy : run (setBuffer s0 b0) ([] ++ text s0) (cs ++ [.finish]) with
    | error e => rw [hy] at hr; simp at hr
    | ok q =>
      obtain ⟨rs', s2, sv2⟩ := q
      rw [hy] at hr
      simp only [ok_bind, Except.ok.injEq, Prod.mk.injEq, List.cons.injEq, true_and] at hr
      obtain ⟨rfl, rfl, rfl⟩ := hr
      rfl
  have I0 : JInv (setBuffer s0 b0) Builder.start ([] ++ text s0) := by
    refine ⟨R, ?_, ?_, ?_⟩
    · show Splitter 58 s0.ks; rw [hk]; exact hks
    · show Splitter 44 s0.vs; rw [hv]; exact hvs
    · rw [ht]
      have : text (setBuffer s0 b0) = [] := by simp [text, setBuffer]
      rw [this]; exact Ws.nil
  have hesc : (setBuffer s0 b0).esc = esc := he
  have hl' : ∀ c ∈ cs ++ [.finish], Legal c := by
    intro c hc
    rcases List.mem_append.1 hc with h | h
    · exact hl c h
    · simp at h; subst h; trivial
  have I := run_json real _ _ _ _ _ _ _ I0 hl' hrun (by rw [hesc]; exact hj)
  obtain ⟨rs', s', saved', b', hrun', hlen, -⟩ := run_all real (cs ++ [.finish]) (setBuffer s0 b0) Builder.start
    ([] ++ text s0) False R hl' (fun h => h.elim)
  rw [hrun] at hrun'
  cases hrun'
  have hopen : (Builder.start.calls real (cs ++ [.finish]) (rs ++ [true])).opened = [] := by
    rw [calls_append real cs rs _ _ _ (by simpa using hlen), if_pos rfl]
    exact closeAll_opened _ _ rfl
  refine ⟨hopen, ?_⟩
  have hI := I.inv
  unfold Inv at hI
  rw [hopen] at hI
  cases hd : (Builder.start.calls real (cs ++ [.finish]) (rs ++ [true])).done with
  | none => rw [hd] at hI; exact hI
  | some v => rw [hd] at hI; exact hI

/-- A document with every kind of value, split over two buffers, meeting the hypotheses. -/
example : ∃ s0 s saved, construct true [58, 32] [44, 32] 4 .str = .ok s0 ∧
    run s0 [] (.setBuffer (List.replicate 24 7) ::
        [.startObject none, .appendStr (some [97]) (some [34]), .setBuffer (List.replicate 60 7),
         .startArray (some [98]), .appendInt none (-12), .appendBool none true] ++ [.finish]) =
      .ok (true :: [true, true, true, true, true, true] ++ [true], s, saved) ∧
    Splitter 58 (cstr [58, 32]) ∧ Splitter 44 (cstr [44, 32]) ∧
    JsonHistory (fun _ => 0) true Builder.start
      ([.startObject none, .appendStr (some [97]) (some [34]), .setBuffer (List.replicate 60 7),
         .startArray (some [98]), .appendInt none (-12), .appendBool none true] ++ [.finish])
      ([true, true, true, true, true, true] ++ [true]) ∧
    (Builder.start.calls (fun _ => 0)
      ([.startObject none, .appendStr (some [97]) (some [34]), .setBuffer (List.replicate 60 7),
         .startArray (some [98]), .appendInt none (-12), .appendBool none true] ++ [.finish])
      ([true, true, true, true, true, true] ++ [true])).done =
      some (.obj [([97], .str [34]), ([98], .arr [.num (-12 : Int), .bool true])]) := by
  refine ⟨_, _, _, rfl, rfl, ⟨[], [32], rfl, by simp [Ws], by simp [Ws]⟩, ⟨[], [32], rfl, by simp [Ws], by simp [Ws]⟩,
    ?_, rfl⟩
  simp [JsonHistory, JsonUse, CleanKey, Clean, cstr]

/-! ### JSON texts contain no other control characters -/

/-- A byte that may occur in a JSON text. -/
def TextByte (c : UInt8) : Prop := 32 ≤ c ∨ c = 9 ∨ c = 10 ∨ c = 13

theorem ws_bytes {w : List UInt8} (h : Ws w) : ∀ c ∈ w, TextByte c := by
  intro c hc
  rcases h c hc with h | h | h | h
  · subst h; exact Or.inl (by decide)
  · exact Or.inr (Or.inl h)
  · exact Or.inr (Or.inr (Or.inl h))
  · exact Or.inr (Or.inr (Or.inr h))

theorem strBody_bytes {B d : List UInt8} (h : StrBody B d) : ∀ c ∈ B, TextByte c := by
  induction h with
  | nil => simp
  | plain c h1 _ _ _ ih =>
    intro x hx
    rcases List.mem_cons.1 hx with rfl | hx
    · exact Or.inl h1
    · exact ih x hx
  | _ _ ih =>
    intro x hx
    simp only [List.mem_cons] at hx
    rcases hx with rfl | rfl | hx
    · exact Or.inl (by decide)
    · exact Or.inl (by decide)
    · exact ih x hx

theorem digits_bytes {ds : List Nat} (h : ∀ d ∈ ds, d < 10) : ∀ c ∈ digits ds, TextByte c := by
  intro c hc
  obtain ⟨d, hd, rfl⟩ := List.mem_map.1 hc
  have : ∀ d : Fin 10, 32 ≤ UInt8.ofNat (d.val + 48) := by decide
  exact Or.inl (this ⟨d, h d hd⟩)

theorem num_bytes {t : List UInt8} {q : Rat} (h : NumLit t q) : ∀ c ∈ t, TextByte c := by
  obtain ⟨neg, n, ip, fp, ft, et, e, rfl, hip, hf, he, -⟩ := h
  have p : ∀ x : UInt8, 32 ≤ x → TextByte x := fun x hx => Or.inl hx
  intro c hc
  simp only [List.mem_append] at hc
  rcases hc with ((hc | hc) | hc) | hc
  · cases neg
    · simp at hc
    · simp at hc; subst hc; exact p _ (by decide)
  · exact digits_bytes hip.1 c hc
  · rcases hf with ⟨rfl, -⟩ | ⟨rfl, -, hd⟩
    · simp at hc
    · rcases List.mem_cons.1 hc with rfl | hc
      · exact p _ (by decide)
      · exact digits_bytes hd c hc
  · rcases he with ⟨rfl, -⟩ | ⟨x, ds, hx, -, hd, h⟩
    · simp at hc
    · have hxb : TextByte x := by rcases hx with rfl | rfl <;> exact p _ (by decide)
      rcases h with ⟨rfl, -⟩ | ⟨rfl, -⟩ | ⟨rfl, -⟩ <;> simp only [List.mem_cons] at hc
      · rcases hc with rfl | hc
        · exact hxb
        · exact digits_bytes hd c hc
      · rcases hc with rfl | rfl | hc
        · exact hxb
        · exact p _ (by decide)
        · exact digits_bytes hd c hc
      · rcases hc with rfl | rfl | hc
        · exact hxb
        · exact p _ (by decide)
        · exact digits_bytes hd c hc

mutual
theorem val_bytes {V : List UInt8} {v : J} : Val V v → ∀ c ∈ V, TextByte c
  | .null => fun c hc => Or.inl (by simp at hc; rcases hc with rfl | rfl | rfl <;> decide)
  | .true => fun c hc => Or.inl (by simp at hc; rcases hc with rfl | rfl | rfl | rfl <;> decide)
  | .false => fun c hc => Or.inl (by simp at hc; rcases hc with rfl | rfl | rfl | rfl | rfl <;> decide)
  | .num h => num_bytes h
  | .str h => fun c hc => by
    have := strBody_bytes h c
    simp at hc
    rcases hc with rfl | hc | rfl
    · exact Or.inl (by decide)
    · exact this hc
    · exact Or.inl (by decide)
  | .emptyArr h => fun c hc => by
    have := ws_bytes h c
    simp at hc
    rcases hc with rfl | hc | rfl
    · exact Or.inl (by decide)
    · exact this hc
    · exact Or.inl (by decide)
  | .arr h => fun c hc => by
    have := elems_bytes h c
    simp at hc
    rcases hc with rfl | hc | rfl
    · exact Or.inl (by decide)
    · exact this hc
    · exact Or.inl (by decide)
  | .emptyObj h => fun c hc => by
    have := ws_bytes h c
    simp at hc
    rcases hc with rfl | hc | rfl
    · exact Or.inl (by decide)
    · exact this hc
    · exact Or.inl (by decide)
  | .obj h => fun c hc => by
    have := members_bytes h c
    simp at hc
    rcases hc with rfl | hc | rfl
    · exact Or.inl (by decide)
    · exact this hc
    · exact Or.inl (by decide)

theorem elems_bytes {E : List UInt8} {xs : List J} : Elems E xs → ∀ c ∈ E, TextByte c
  | .one ha hv hb => fun c hc => by
    have h1 := ws_bytes ha c
    have h2 := val_bytes hv c
    have h3 := ws_bytes hb c
    simp only [List.mem_append] at hc
    rcases hc with (hc | hc) | hc
    · exact h1 hc
    · exact h2 hc
    · exact h3 hc
  | .more he ha hv hb => fun c hc => by
    have h0 := elems_bytes he c
    have h1 := ws_bytes ha c
    have h2 := val_bytes hv c
    have h3 := ws_bytes hb c
    simp only [List.mem_append, List.mem_cons] at hc
    rcases hc with hc | rfl | (hc | hc) | hc
    · exact h0 hc
    · exact Or.inl (by decide)
    · exact h1 hc
    · exact h2 hc
    · exact h3 hc

theorem members_bytes {E : List UInt8} {ms : List (List UInt8 × J)} : Members E ms → ∀ c ∈ E, TextByte c
  | .one ha hk hb hc' hv hd => fun c hc => by
    have h1 := ws_bytes ha c
    have h2 := strBody_bytes hk c
    have h3 := ws_bytes hb c
    have h4 := ws_bytes hc' c
    have h5 := val_bytes hv c
    have h6 := ws_bytes hd c
    simp only [List.mem_append, List.mem_cons, List.not_mem_nil, or_false] at hc
    rcases hc with ((hc | (rfl | hc) | rfl) | hc) | rfl | (hc | hc) | hc
    · exact h1 hc
    · exact Or.inl (by decide)
    · exact h2 hc
    · exact Or.inl (by decide)
    · exact h3 hc
    · exact Or.inl (by decide)
    · exact h4 hc
    · exact h5 hc
    · exact h6 hc
  | .more he ha hk hb hc' hv hd => fun c hc => by
    have h0 := members_bytes he c
    have h1 := ws_bytes ha c
    have h2 := strBody_bytes hk c
    have h3 := ws_bytes hb c
    have h4 := ws_bytes hc' c
    have h5 := val_bytes hv c
    have h6 := ws_bytes hd c
    simp only [List.mem_append, List.mem_cons, List.not_mem_nil, or_false] at hc
    rcases hc with hc | rfl | ((hc | (rfl | hc) | rfl) | hc) | rfl | (hc | hc) | hc
    · exact h0 hc
    · exact Or.inl (by decide)
    · exact h1 hc
    · exact Or.inl (by decide)
    · exact h2 hc
    · exact Or.inl (by decide)
    · exact h3 hc
    · exact Or.inl (by decide)
    · exact h4 hc
    · exact h5 hc
    · exact h6 hc
end

theorem text_bytes {t : List UInt8} {v : J} (h : Text t v) : ∀ c ∈ t, TextByte c := by
  obtain ⟨a, V, b, rfl, ha, hv, hb⟩ := h
  intro c hc
  have h1 := ws_bytes ha c
  have h2 := val_bytes hv c
  have h3 := ws_bytes hb c
  simp only [List.mem_append] at hc
  rcases hc with (hc | hc) | hc
  · exact h1 hc
  · exact h2 hc
  · exact h3 hc

/-- The restriction to clean strings is needed: a control character is copied as it is, and the finished text is no
JSON text at all. -/
theorem control_character_breaks_json :
    ∃ s0 s saved, construct true [58] [44] 3 .str = .ok s0 ∧
      run s0 [] [.setBuffer (List.replicate 8 7), .appendStr none (some [1]), .finish] =
        .ok ([true, true, true], s, saved) ∧ ¬ ∃ v, Text (saved ++ text s) v := by
  refine ⟨_, _, _, rfl, rfl, ?_⟩
  rintro ⟨v, h⟩
  have h1 := text_bytes h 1 (by decide)
  revert h1
  unfold TextByte
  decide

/-- With slash escaping off, a slash is lost: the document says `/`, the text says the empty string. -/
theorem unescaped_slash_is_lost :
    ∃ s0 s saved, construct false [58] [44] 3 .str = .ok s0 ∧
      run s0 [] [.setBuffer (List.replicate 8 7), .appendStr none (some [47]), .finish] =
        .ok ([true, true, true], s, saved) ∧ saved ++ text s = [34, 34] ∧ Text [34, 34] (.str []) :=
  ⟨_, _, _, rfl, rfl, by decide, [], [34, 34], [], rfl, by simp [Ws], .str .nil, by simp [Ws]⟩

/-! ## C10 -/

theorem sepText_lead (s : S) (b : Builder) (key : Option (List UInt8)) :
    Lead s b key (sepText s (headMode b) ++ keyText s key) := by
  refine ⟨_, _, rfl, ?_, ?_⟩
  · obtain ⟨dn, op⟩ := b
    match op with
    | [] => cases dn <;> rfl
    | (k, .arr []) :: rest => rfl
    | (k, .arr (x :: xs)) :: rest => rfl
    | (k, .obj []) :: rest => rfl
    | (k, .obj (x :: xs)) :: rest => rfl
    | (k, .str d) :: rest => rfl
  · cases key with
    | none => rfl
    | some k => exact ⟨escAll s.esc k, rfl, fun h => strBody_flatMap h⟩

/-- **C10** (partial: `Clean` strings).  After any legal history, a successful `AppendStr` — zero-terminated or sized,
under a key or not, inside an open string or not — appends a literal that the grammar reads as exactly the given
bytes. -/
theorem string_escaping_round_trips_partial (real : List UInt8 → Rat) {esc : Bool} {ks vs : List UInt8}
    {maxDepth : Nat} {junk : Mode} {s0 : S} {b0 : List UInt8} (h0 : construct esc ks vs maxDepth junk = .ok s0)
    (hb : Legal (.setBuffer b0)) {cs : List Call} (hl : ∀ c ∈ cs, Legal c) {rs : List Bool} {s : S}
    {saved : List UInt8} (hr : run s0 [] (.setBuffer b0 :: cs) = .ok (true :: rs, s, saved)) :
    ∃ b, Describes real Builder.start cs rs b ∧
      ∀ (c : Call) (key : Option (List UInt8)) (d : List UInt8) (s' : S),
        (∃ v, c = .appendStr key (some v) ∧ d = cstr v) ∨ (∃ v n, c = .appendStrN key (some v) n ∧ d = v.take n) →
        Legal c → Clean s.esc d → step s c = .ok (true, s') →
        ∃ B, StrBody B d ∧ (∀ d', StrBody B d' → d' = d) ∧
          ((b.InStr ∧ text s' = text s ++ B) ∨
           (¬ b.InStr ∧ ∃ pre, Lead s b key pre ∧ text s' = text s ++ pre ++ (34 :: B ++ [34]))) := by
  obtain ⟨rs', s2, saved2, b, hrun, -, R, -, hd, -⟩ := history real h0 hb hl
  rw [hr] at hrun
  cases hrun
  refine ⟨b, hd, ?_⟩
  intro c key d s' hcd hlc hcl hst
  have hB : StrBody (d.flatMap (escOut s.esc)) d := strBody_flatMap hcl
  have hA : Ad s s' (if headMode b = .str then d.flatMap (escOut s.esc)
      else sepText s (headMode b) ++ keyText s key ++ (34 :: d.flatMap (escOut s.esc) ++ [34])) := by
    have hat : AddsText c := by
      rcases hcd with ⟨v, rfl, -⟩ | ⟨v, n, rfl, -⟩ <;> trivial
    obtain ⟨r1, s1, hx1, -, htr, -⟩ := step_good real R c hlc hat
    rw [hx1] at hst
    cases hst
    obtain ⟨-, -, hA, -⟩ := htr rfl
    rcases hcd with ⟨v, rfl, rfl⟩ | ⟨v, n, rfl, rfl⟩ <;> exact hA
  refine ⟨_, hB, fun d' h' => strBody_unique h' hB, ?_⟩
  by_cases hs : b.InStr
  · rw [if_pos ((headMode_str b).2 hs)] at hA
    exact Or.inl ⟨hs, hA.text⟩
  · rw [if_neg (fun h => hs ((headMode_str b).1 h))] at hA
    refine Or.inr ⟨hs, _, sepText_lead s b key, ?_⟩
    rw [hA.text]; simp

/-- All eight escaped characters and an ordinary one, under a key. -/
example : ∃ s0 s s', construct true [58] [44] 3 .str = .ok s0 ∧
    run s0 [] [.setBuffer (List.replicate 64 7), .startObject none] = .ok ([true, true], s, []) ∧
    step s (.appendStr (some [107]) (some [34, 92, 47, 8, 12, 10, 13, 9, 200])) = .ok (true, s') ∧
    text s' = [123, 34, 107, 34, 58, 34, 92, 34, 92, 92, 92, 47, 92, 98, 92, 102, 92, 110, 92, 114, 92, 116, 200, 34] :=
  ⟨_, _, _, rfl, rfl, rfl, by decide⟩

/-! ## C11 -/

theorem prefixNeed_le (s : S) (m : Mode) (k : Option (List UInt8)) :
    prefixNeed s m k ≤ s.vs.length + s.ks.length + 2 * ((keyOf k).map List.length).getD 0 + 2 := by
  have h1 : (sepText s m).length ≤ s.vs.length := by unfold sepText; split <;> simp
  have h2 : ∀ l : List UInt8, calcLoop s.esc l ≤ 2 * (cstr l).length := by
    intro l
    induction l with
    | nil => simp [calcLoop, cstr]
    | cons c l ih =>
      have := extra_le s.esc c
      unfold calcLoop cstr
      by_cases h : c = 0
      · simp [h]
      · rw [if_neg h, if_neg h]; simp; omega
  unfold prefixNeed
  cases k with
  | none => simp [keyOf]; omega
  | some k =>
    have := h2 k
    simp [keyOf]; omega

theorem enough_le (s : S) (m : Mode) (c : Call) (hl : Legal c) : enough s m c ≤ roomFor s c := by
  have h2 : ∀ l : List UInt8, calcLoop s.esc l ≤ 2 * (cstr l).length := by
    intro l
    induction l with
    | nil => simp [calcLoop, cstr]
    | cons c l ih =>
      have := extra_le s.esc c
      unfold calcLoop cstr
      by_cases h : c = 0
      · simp [h]
      · rw [if_neg h, if_neg h]; simp; omega
  have h3 : ∀ (v : List UInt8) n, sizedNeed s.esc v n ≤ 2 * n := by
    intro v n
    unfold sizedNeed
    split
    · omega
    · rename_i c _
      have := extra_le s.esc c
      have h4 : n * (extra s.esc c + 1) ≤ n * 2 := Nat.mul_le_mul_left n (by omega)
      omega
  cases c with
  | startObject k => have := prefixNeed_le s m k; simp only [enough, roomFor]; omega
  | startArray k => have := prefixNeed_le s m k; simp only [enough, roomFor]; omega
  | startStr k => have := prefixNeed_le s m k; simp only [enough, roomFor]; omega
  | appendNull k => have := prefixNeed_le s m k; simp only [enough, roomFor]; omega
  | appendBool k _ => have := prefixNeed_le s m k; simp only [enough, roomFor]; omega
  | appendInt k _ => have := prefixNeed_le s m k; simp only [enough, roomFor]; omega
  | appendUInt k _ => have := prefixNeed_le s m k; simp only [enough, roomFor]; omega
  | appendDouble k _ => have := prefixNeed_le s m k; simp only [enough, roomFor]; omega
  | appendStr k v =>
    have := prefixNeed_le s m k
    cases v with
    | none => simp only [enough, roomFor]; omega
    | some v =>
      have h4 := h2 v
      have h5 : ((keyOf (some v)).map List.length).getD 0 = (cstr v).length := rfl
      simp only [enough, roomFor, h5]; omega
  | appendStrN k v n =>
    have := prefixNeed_le s m k
    cases v with
    | none => simp only [enough, roomFor]; omega
    | some v => have h4 := h3 v n; simp only [enough, roomFor]; omega
  | append v n => cases v <;> simp [enough, roomFor]
  | _ => simp [enough, roomFor]

/-- **C11**.  After any legal history, a call succeeds only if JSON's structure allows it there; and if it is allowed,
it fails only for want of room. -/
theorem structure_enforced_partial (real : List UInt8 → Rat) {esc : Bool} {ks vs : List UInt8} {maxDepth : Nat} {junk : Mode}
    {s0 : S} {b0 : List UInt8} (h0 : construct esc ks vs maxDepth junk = .ok s0) (hb : Legal (.setBuffer b0))
    {cs : List Call} (hl : ∀ c ∈ cs, Legal c) {rs : List Bool} {s : S} {saved : List UInt8}
    (hr : run s0 [] (.setBuffer b0 :: cs) = .ok (true :: rs, s, saved)) :
    ∃ b, Describes real Builder.start cs rs b ∧ b.opened.length < maxDepth ∧ s.depth = b.opened.length ∧
      ∀ c, Legal c → AddsText c → ∃ r s', step s c = .ok (r, s') ∧ (r = true → b.Allowed maxDepth c) ∧
        (b.Allowed maxDepth c → s.pos + roomFor s c ≤ s.size → r = true) := by
  obtain ⟨rs', s2, saved2, b, hrun, -, R, hm, hd, -⟩ := history real h0 hb hl
  rw [hr] at hrun
  cases hrun
  have hdep : s.depth = b.opened.length := by rw [R.depth, below_length]
  refine ⟨b, hd, ?_, hdep, ?_⟩
  · rw [← hm, ← hdep]; exact R.wf.depth
  · intro c hlc hat
    obtain ⟨r1, s1, hx1, -, htr, hroom⟩ := step_good real R c hlc hat
    rw [hm] at htr hroom
    refine ⟨r1, s1, hx1, fun h => (htr h).1, fun ha hs => hroom ha ?_⟩
    have := enough_le s (headMode b) c hlc
    omega

/-- In an object at depth limit 2: a nested array is refused, a keyed number is not, an unkeyed one is. -/
example : ∃ s0 s s', construct true [58] [44] 2 .str = .ok s0 ∧
    run s0 [] [.setBuffer (List.replicate 99 7), .startObject none] = .ok ([true, true], s, []) ∧
    step s (.startArray (some [97])) = .ok (false, s) ∧ step s (.appendUInt none 5) = .ok (false, s) ∧
    step s .endArray = .ok (false, s) ∧ step s (.appendUInt (some [97]) 5) = .ok (true, s') :=
  ⟨_, _, _, rfl, rfl, by decide, by decide, by decide, rfl⟩

/-! ## C12 -/

/-- **C12** (partial: a failing `Finish` is not without effect, see `failed_finish_changes_text`; it has closed as many
scopes as fitted).  After any legal history `Finish` succeeds exactly when the closers of all open scopes fit, and then
appends them, innermost first, leaving depth zero. -/
theorem finish_closes_all_partial (real : List UInt8 → Rat) {esc : Bool} {ks vs : List UInt8} {maxDepth : Nat}
    {junk : Mode} {s0 : S} {b0 : List UInt8} (h0 : construct esc ks vs maxDepth junk = .ok s0)
    (hb : Legal (.setBuffer b0)) {cs : List Call} (hl : ∀ c ∈ cs, Legal c) {rs : List Bool} {s : S}
    {saved : List UInt8} (hr : run s0 [] (.setBuffer b0 :: cs) = .ok (true :: rs, s, saved)) :
    ∃ b, Describes real Builder.start cs rs b ∧ ∃ r s', step s .finish = .ok (r, s') ∧
      (r = true ↔ s.pos + (closers b).length ≤ s.size) ∧
      (r = true → text s' = text s ++ closers b ∧ s'.depth = 0) ∧
      (r = false → ∃ j, j < (closers b).length ∧ s.pos + j = s.size ∧ text s' = text s ++ (closers b).take j ∧
        s'.depth = s.depth - j) := by
  obtain ⟨rs', s2, saved2, b, hrun, -, R, hm, hd, -⟩ := history real h0 hb hl
  rw [hr] at hrun
  cases hrun
  have hdep : s.depth = b.opened.length := by rw [R.depth, below_length]
  refine ⟨b, hd, ?_⟩
  obtain ⟨r, s', j, hx, hj, hR, hA, -, -, ht, hf⟩ := finish_spec R
  have hlen := closers_length b
  have hdj : ∀ (n : Nat) (b : Builder), n ≤ b.opened.length →
      (Builder.closeAll n b).opened.length = b.opened.length - n := by
    intro n
    induction n with
    | zero => intro b _; rfl
    | succ n ih =>
      intro b hn
      have hne : b.opened ≠ [] := by intro h; rw [h] at hn; simp at hn
      have := close_length hne
      show (Builder.closeAll n b.close).opened.length = _
      rw [ih b.close (by omega)]; omega
  have hd' : s'.depth = s.depth - j := by
    rw [hR.depth, below_length, hdj j b hj, hdep]
  have hpos := hA.pos
  have hsz := hA.size
  have hwp := hR.wf.pos
  rw [List.length_take, hlen, Nat.min_eq_left hj] at hpos
  refine ⟨r, s', hx, ⟨fun h => ?_, fun h => ?_⟩, fun h => ?_, fun h => ?_⟩
  · have := ht h; omega
  · cases r with
    | true => rfl
    | false => have := hf rfl; omega
  · have hje := ht h
    refine ⟨?_, by omega⟩
    rw [hA.text, hje, ← hlen, List.take_of_length_le (Nat.le_refl _)]
  · obtain ⟨h1, h2⟩ := hf h
    exact ⟨j, by omega, h2, hA.text, hd'⟩

/-- Four nested scopes of all kinds. -/
example : ∃ s0 s s', construct true [58] [44] 9 .str = .ok s0 ∧
    run s0 [] [.setBuffer (List.replicate 99 7), .startArray none, .startObject none, .startArray (some [97]), .startStr none] =
      .ok ([true, true, true, true, true], s, []) ∧
    step s .finish = .ok (true, s') ∧ text s' = [91, 123, 34, 97, 34, 58, 91, 34, 34, 93, 125, 93] :=
  ⟨_, _, _, rfl, rfl, rfl, by decide⟩

/-! ## C13 -/

/-- **C13** (partial: not the minimum `int64_t`, see below).  After any legal history, a successful `AppendInt` /
`AppendUInt` appends, after splitter and key, exactly the decimal numeral of the number. -/
theorem integers_exact_partial (real : List UInt8 → Rat) {esc : Bool} {ks vs : List UInt8} {maxDepth : Nat}
    {junk : Mode} {s0 : S} {b0 : List UInt8} (h0 : construct esc ks vs maxDepth junk = .ok s0)
    (hb : Legal (.setBuffer b0)) {cs : List Call} (hl : ∀ c ∈ cs, Legal c) {rs : List Bool} {s : S}
    {saved : List UInt8} (hr : run s0 [] (.setBuffer b0 :: cs) = .ok (true :: rs, s, saved)) :
    ∃ b, Describes real Builder.start cs rs b ∧
      (∀ key (v : Int) s', -(2 ^ 63) < v → v < 2 ^ 63 → step s (.appendInt key v) = .ok (true, s') →
        ∃ pre t, Lead s b key pre ∧ IntText v t ∧ text s' = text s ++ pre ++ t) ∧
      (∀ key (v : Nat) s', v < 2 ^ 64 → step s (.appendUInt key v) = .ok (true, s') →
        ∃ pre t, Lead s b key pre ∧ IntText v t ∧ text s' = text s ++ pre ++ t) := by
  obtain ⟨rs', s2, saved2, b, hrun, -, R, hm, hd, -⟩ := history real h0 hb hl
  rw [hr] at hrun
  cases hrun
  refine ⟨b, hd, ?_, ?_⟩
  · intro key v s' h1 h2 hst
    obtain ⟨r1, s1, hx1, -, htr, -⟩ := step_good real R (.appendInt key v) ⟨h1, h2⟩ trivial
    rw [hx1] at hst
    cases hst
    obtain ⟨-, -, hA, -⟩ := htr rfl
    obtain ⟨t, e, ht⟩ := intI_ok v h1 h2
    simp only [callText, e] at hA
    refine ⟨_, cstr t, sepText_lead s b key, ht, ?_⟩
    rw [hA.text]; simp
  · intro key v s' h1 hst
    obtain ⟨r1, s1, hx1, -, htr, -⟩ := step_good real R (.appendUInt key v) h1 trivial
    rw [hx1] at hst
    cases hst
    obtain ⟨-, -, hA, -⟩ := htr rfl
    obtain ⟨t, rest, e, hr', h0'⟩ := intU_ok 44 v (by omega) h1
    simp only [callText, e, cstr_append _ _ h0'] at hA
    obtain ⟨ds, h3, h4⟩ := rendering_digits hr'
    refine ⟨_, t, sepText_lead s b key, ⟨ds, by simpa using h3, by rw [if_neg (by omega)]; simpa using h4⟩, ?_⟩
    rw [hA.text]; simp

/-- The extreme values. -/
example : ∃ s0 s s', construct true [58] [44] 9 .str = .ok s0 ∧
    run s0 [] [.setBuffer (List.replicate 99 7), .startArray none, .appendUInt none 18446744073709551615] =
      .ok ([true, true, true], s, []) ∧
    step s (.appendInt none (-9223372036854775807)) = .ok (true, s') ∧
    text s' = [91, 49, 56, 52, 52, 54, 55, 52, 52, 48, 55, 51, 55, 48, 57, 53, 53, 49, 54, 49, 53, 44,
      45, 57, 50, 50, 51, 51, 55, 50, 48, 51, 54, 56, 53, 52, 55, 55, 53, 56, 48, 55] :=
  ⟨_, _, _, rfl, rfl, rfl, by decide⟩

/-- The minimum is negated, which overflows. -/
theorem minimum_int_undefined (s : S) (key : Option (List UInt8)) :
    step s (.appendInt key (-9223372036854775808)) = .error .signedOverflow := rfl

end Verif.Json
