import Verif.Path.AbsLemmas
import Verif.File.LineLemmas

/-!
# What `GetAbsoluteFilename` does, for all inputs
-/

namespace Verif.Path
open Spec

theorem slashed_no_zero {f : List Nat} (h : 0 ∉ f) : 0 ∉ slashed f := by
  intro hm
  obtain ⟨c, hc, e⟩ := List.mem_map.1 hm
  split at e
  · cases e
  · subst e; exact h hc

theorem slashed_len (f : List Nat) : (slashed f).length = f.length := by simp [slashed]

theorem slashed_ne {f : List Nat} (h : f ≠ []) : slashed f ≠ [] := by simpa [slashed] using h

/-! ## The normalised name -/

theorem undotP_ne {gs : List (List Nat)} (h : gs ≠ []) : undotP gs ≠ [] := by
  induction gs with
  | nil => exact absurd rfl h
  | cons g gs ih =>
    unfold undotP
    split
    · split
      · simp
      · next hgs => exact ih hgs
    · simp

theorem fix_pieces {s g : List Nat} {gs : List (List Nat)} (hp : pieces s = g :: gs) :
    ∃ gs', fix s = g ++ join gs' ∧ Clean gs' ∧ dot ∉ gs' ∧ gs'.getLast? ≠ some dotdot ∧ (gs ≠ [] → gs' ≠ []) ∧
      (gs = [] → gs' = []) ∧ ∀ st, walk st (full gs') = walk st (full gs) := by
  have hcl := pieces_clean s
  rw [hp] at hcl
  have hg := hcl g List.mem_cons_self
  have hc : Clean gs := fun x hx => hcl x (List.mem_cons_of_mem _ hx)
  have hs := pieces_join s g gs hp
  have hu : undot s = g ++ join (undotP gs) := by rw [hs, undot_seg _ g hg, undot_join gs hc]
  have hc' := undotP_clean gs hc
  have hd' := undotP_nodot gs
  have hw := walk_undotP gs
  have hne : gs ≠ [] → undotP gs ≠ [] := undotP_ne
  have hnil : gs = [] → undotP gs = [] := by intro e; subst e; rfl
  unfold fix
  rw [hu]
  clear hu hs
  generalize undotP gs = us at *
  by_cases hl : us.getLast? = some dotdot
  · obtain ⟨l, rfl⟩ := List.getLast?_eq_some_iff.1 hl
    rw [if_pos]
    · refine ⟨l ++ [dotdot] ++ [[]], ?_, ?_, ?_, ?_, fun _ => by simp, ?_, ?_⟩
      · rw [join_append (l ++ [dotdot])]; simp
      · intro x hx
        rcases List.mem_append.1 hx with hx | hx
        · exact hc' x hx
        · simp at hx; simp [hx]
      · intro hx
        rcases List.mem_append.1 hx with hx | hx
        · exact hd' hx
        · simp [dot] at hx
      · simp [dotdot]
      · intro e; have := hnil e; simp at this
      · intro st
        rw [← hw st]
        unfold full
        rw [List.filter_append (p := fun g : List Nat => !g.isEmpty) (l ++ [dotdot])]
        simp
    · rw [join_append]
      exact ⟨g ++ join l, by simp [dotdot]⟩
  · rw [if_neg]
    · exact ⟨us, rfl, hc', hd', hl, hne, hnil, hw⟩
    · rintro ⟨a, ha⟩
      rcases List.eq_nil_or_concat us with rfl | ⟨l, h, hlh⟩
      · apply hg
        rw [join_nil, List.append_nil] at ha
        rw [← ha]; simp
      · rw [List.concat_eq_append] at hlh
        subst hlh
        apply hl
        rw [join_append, ← List.append_assoc] at ha
        have := last_slash (a := a) (a' := g ++ join l) (g := [46, 46]) (g' := h) (by simpa using ha) (by decide)
          (hc' h (by simp))
        rw [← this]
        simp [dotdot]

/-- The components left on the stack: as in `resolve`, except that the first component of a relative
name and the components of the base directory are pushed as they are. -/
def stack (bs nm : List Nat) : List (List Nat) :=
  if nm.head? = some 47 then walk [] (comps nm) else walk (comps bs ++ (comps nm).take 1) ((comps nm).drop 1)

theorem head_pieces {nm g : List Nat} {gs : List (List Nat)} (hp : pieces nm = g :: gs) :
    nm.head? = some 47 ↔ g = [] ∧ gs ≠ [] := by
  have hs := pieces_join nm g gs hp
  have hcl := pieces_clean nm
  rw [hp] at hcl
  have hg := hcl g List.mem_cons_self
  rw [hs]
  cases g with
  | nil => cases gs <;> simp
  | cons c g =>
    simp
    intro e
    exact hg (by simp [e])

theorem fix_head (nm : List Nat) : (fix nm).head? = some 47 ↔ nm.head? = some 47 := by
  cases hp : pieces nm with
  | nil => exact absurd hp (pieces_ne nm)
  | cons g gs =>
    obtain ⟨gs', h1, h2, h3, h4, h5, h6, h7⟩ := fix_pieces hp
    rw [head_pieces hp, h1]
    have hcl := pieces_clean nm
    rw [hp] at hcl
    have hg := hcl g List.mem_cons_self
    cases g with
    | nil =>
      cases gs' with
      | nil =>
        simp
        apply Classical.byContradiction
        intro hn
        exact h5 hn rfl
      | cons a t =>
        simp
        intro e
        cases h6 e
    | cons c g =>
      simp
      intro e
      exact hg (by simp [e])

theorem proc_abs (nm : List Nat) (h : nm.head? = some 47) : comps (proc [47] (fix nm)) = walk [] (comps nm) := by
  cases hp : pieces nm with
  | nil => exact absurd hp (pieces_ne nm)
  | cons g gs =>
    obtain ⟨gs', h1, h2, h3, h4, h5, h6, h7⟩ := fix_pieces hp
    obtain ⟨rfl, hgs⟩ := (head_pieces hp).1 h
    rw [h1, List.nil_append, proc_join gs' [47] h2 h3 h4, h7, comps_of_pieces hp]
    rfl

theorem proc_rel (P bs nm : List Nat) (h : nm.head? ≠ some 47) (hP : P.getLast? = some 47) (hc : comps P = comps bs) :
    comps (proc P (fix nm)) = walk (comps bs ++ (comps nm).take 1) ((comps nm).drop 1) := by
  cases hp : pieces nm with
  | nil => exact absurd hp (pieces_ne nm)
  | cons g gs =>
    obtain ⟨gs', h1, h2, h3, h4, h5, h6, h7⟩ := fix_pieces hp
    have hcl := pieces_clean nm
    rw [hp] at hcl
    have hg := hcl g List.mem_cons_self
    rw [h1, proc_seg _ g P hg, proc_join gs' _ h2 h3 h4, h7, comps_of_pieces hp]
    by_cases hne : g = []
    · subst hne
      have : gs = [] := by
        apply Classical.byContradiction
        intro hn
        exact h ((head_pieces hp).2 ⟨rfl, hn⟩)
      subst this
      simp [full, hc]
    · rw [comps_concat (.inr hP) hg hne, if_neg hne, hc]
      rfl

/-! ## The base directory -/

/-- The base directory in force is `bs`: the accepted argument, or the current directory. -/
def Base (sgn : Bool) (bd cwd : Option (List Nat)) (bs : List Nat) : Prop :=
  (∃ d, bd = some d ∧ Accepted sgn 8192 d ∧ bs = slashed d) ∨ (bd = none ∧ cwd = some bs ∧ bs.length < 8192)

theorem last_cell {s j : List Nat} (hj : j[8191]? ≠ some 47)
    (hs : s.length < 8192) : (s ++ 0 :: j.drop (s.length + 1))[8191]? ≠ some 47 := by
  rw [List.getElem?_append_right (by omega)]
  by_cases h1 : s.length = 8191
  · rw [h1]; simp
  · rw [show 8191 - s.length = (8190 - s.length) + 1 by omega, List.getElem?_cons_succ, List.getElem?_drop,
      show s.length + 1 + (8190 - s.length) = 8191 by omega]
    exact hj

theorem baseDir_ok (sgn : Bool) (bd cwd : Option (List Nat)) (br junk : List Nat) (hb0 : ∀ d, bd = some d → 0 ∉ d)
    (hc0 : ∀ s, cwd = some s → 0 ∉ s) (hj : junk.length = 8192) :
    ∃ ok b, baseDir sgn (bd.map (· ++ 0 :: br)) cwd junk = .ok (ok, b) ∧
      ((ok = false ∧ ¬ ∃ bs, Base sgn bd cwd bs ∧ bs.head? = some 47) ∨
       (ok = true ∧ ∃ bs, Base sgn bd cwd bs ∧ bs.head? = some 47 ∧ 0 ∉ bs ∧ bs.length < 8192 ∧
          b = bs ++ 0 :: junk.drop (bs.length + 1))) := by
  unfold baseDir
  -- the test for a leading slash
  have key : ∀ bs : List Nat, Base sgn bd cwd bs → 0 ∉ bs → bs.length < 8192 →
      (∀ bs', Base sgn bd cwd bs' → bs' = bs) →
      ∃ ok b, (do
        let c ← rd (bs ++ 0 :: junk.drop (bs.length + 1)) 0
        .ok (decide (c = 47), bs ++ 0 :: junk.drop (bs.length + 1)) : CRes (Bool × List Nat)) = .ok (ok, b) ∧
      ((ok = false ∧ ¬ ∃ bs, Base sgn bd cwd bs ∧ bs.head? = some 47) ∨
       (ok = true ∧ ∃ bs, Base sgn bd cwd bs ∧ bs.head? = some 47 ∧ 0 ∉ bs ∧ bs.length < 8192 ∧
          b = bs ++ 0 :: junk.drop (bs.length + 1))) := by
    intro bs h1 h2 h3 h4
    have hr : rd (bs ++ 0 :: junk.drop (bs.length + 1)) 0 = .ok (bs.headD 0) := by cases bs <;> rfl
    rw [hr, ok_bind]
    refine ⟨_, _, rfl, ?_⟩
    by_cases hh : bs.head? = some 47
    · right
      refine ⟨?_, bs, h1, hh, h2, h3, rfl⟩
      cases bs with
      | nil => cases hh
      | cons c t => simp at hh; simp [hh]
    · left
      refine ⟨?_, ?_⟩
      · cases bs with
        | nil => rfl
        | cons c t => simpa using hh
      · rintro ⟨bs', g1, g2⟩
        rw [h4 bs' g1] at g2
        exact hh g2
  cases bd with
  | some d =>
    obtain ⟨ok, r, h1, h2, h3, h4⟩ := getPlatform_ok sgn d br junk 8192 (hb0 d rfl) (by omega)
    simp only [Option.map_some]
    rw [h1, ok_bind]
    dsimp only
    cases ok with
    | false =>
      refine ⟨_, _, rfl, .inl ⟨rfl, ?_⟩⟩
      rintro ⟨bs, ⟨d', e, ha, _⟩ | ⟨e, _⟩, _⟩
      · cases e
        cases h3.2 ha
      · cases e
    | true =>
      have ha := h3.1 rfl
      rw [h4 rfl]
      have := key (slashed d) (.inl ⟨d, rfl, ha, rfl⟩) (slashed_no_zero (hb0 d rfl)) (by rw [slashed_len]; have := ha.2.1; omega) (by
        rintro bs' (⟨d', e, _, e2⟩ | ⟨e, _⟩)
        · cases e; exact e2
        · cases e)
      rw [slashed_len] at this
      exact this
  | none =>
    cases cwd with
    | none =>
      refine ⟨_, _, rfl, .inl ⟨rfl, ?_⟩⟩
      rintro ⟨bs, ⟨d', e, ha, _⟩ | ⟨_, e, _⟩, _⟩
      · cases e
      · cases e
    | some s =>
      simp only [Option.map_none]
      by_cases hs : s.length + 1 > 8192
      · rw [if_pos hs, ok_bind]
        refine ⟨_, _, rfl, .inl ⟨rfl, ?_⟩⟩
        rintro ⟨bs, ⟨d', e, ha, _⟩ | ⟨_, e, hlt⟩, _⟩
        · cases e
        · cases e; omega
      · rw [if_neg hs]
        have := File.memcpyTo_ok junk (s ++ [0]) 0 (s.length + 1) (by simp) (by omega)
        rw [this, ok_bind, ok_bind]
        dsimp only
        have e : junk.take 0 ++ (s ++ [0]).take (s.length + 1) ++ junk.drop (0 + (s.length + 1)) =
            s ++ 0 :: junk.drop (s.length + 1) := by
          rw [List.take_of_length_le (l := s ++ [0]) (by simp), Nat.zero_add]; simp
        rw [e]
        exact key s (.inr ⟨rfl, rfl, by omega⟩) (hc0 s rfl) (by omega) (by
          rintro bs' (⟨d', e, _, e2⟩ | ⟨_, e, _⟩)
          · cases e
          · cases e; rfl)

/-- The base directory with a trailing slash. -/
def withSlash (bs : List Nat) : List Nat := if bs.getLast? = some 47 then bs else bs ++ [47]

theorem comps_withSlash (bs : List Nat) : comps (withSlash bs) = comps bs := by
  unfold withSlash
  split
  · rfl
  · rw [comps_append, comps_nil, List.append_nil]

theorem withSlash_last (bs : List Nat) : (withSlash bs).getLast? = some 47 := by
  unfold withSlash
  split
  · assumption
  · simp

theorem slashBase_ok (bs tl : List Nat) (h0 : 0 ∉ bs) (hne : bs ≠ []) (hl : (bs ++ 0 :: tl).length = 8192)
    (hc : (bs ++ 0 :: tl)[8191]? ≠ some 47) :
    ∃ ok b, slashBase (bs ++ 0 :: tl) = .ok (ok, b) ∧ (ok = false → bs.length ≥ 8191) ∧
      (ok = true → b.length = 8192 ∧ b[8191]? ≠ some 47 ∧ ∃ tl', b = withSlash bs ++ 0 :: tl') := by
  unfold slashBase withSlash
  rw [cstr_ok bs tl h0, ok_bind]
  dsimp only
  rw [lastIs_ok _ bs (by simp) (by simp), ok_bind]
  have hpos : bs.length ≠ 0 := fun e => hne (List.length_eq_zero_iff.1 e)
  by_cases hlast : bs.getLast? = some 47
  · rw [if_neg (by simp [hlast]), if_pos hlast]
    exact ⟨true, _, rfl, (fun h => nomatch h), fun _ => ⟨hl, hc, _, rfl⟩⟩
  · rw [if_pos (by simp [hlast, hne]), if_neg hlast]
    by_cases hbig : bs.length ≥ 8191
    · rw [if_pos hbig]
      exact ⟨false, _, rfl, fun _ => hbig, (fun h => nomatch h)⟩
    · rw [if_neg hbig, wr_at _ (by omega), ok_bind]
      have h1 : (bs ++ 0 :: tl).take bs.length = bs := by simp
      have h2 : (bs ++ 0 :: tl).drop (bs.length + 1) = tl := by simp
      rw [h1, h2]
      have hl2 : (bs ++ 47 :: tl).length = 8192 := by simpa using hl
      rw [wr_at _ (by omega), ok_bind]
      have h3 : (bs ++ 47 :: tl).take (bs.length + 1) = bs ++ [47] := by
        rw [List.take_length_add_append]; rfl
      have h4 : (bs ++ 47 :: tl).drop (bs.length + 1 + 1) = tl.drop 1 := by
        rw [← List.drop_drop]; simp
      rw [h3, h4]
      have hl3 : (bs ++ [47] ++ 0 :: tl.drop 1).length = 8192 := by simp at hl ⊢; omega
      refine ⟨true, _, rfl, (fun h => nomatch h), fun _ => ⟨hl3, ?_, _, rfl⟩⟩
      rw [List.getElem?_append_right (by simp; omega)]
      by_cases hb : bs.length + 1 = 8191
      · simp [hb]
      · have e : 8191 - (bs ++ [47]).length = (8189 - bs.length) + 1 := by simp; omega
        rw [e, List.getElem?_cons_succ, List.getElem?_drop]
        rw [List.getElem?_append_right (by omega), show 8191 - bs.length = (8190 - bs.length) + 1 by omega,
          List.getElem?_cons_succ] at hc
        rw [show 1 + (8189 - bs.length) = 8190 - bs.length by omega]
        exact hc

/-! ## Everything -/

/-- What is left when the string, cut off at the size of the buffer, is complete. -/
def Done (trailing : Bool) (size : Nat) (S : List (List Nat)) (ok : Bool) (r : List Nat) : Prop :=
  ∃ tr, (tr = [] ∨ tr = [47]) ∧ (S = [] → tr = [47]) ∧ (join S ++ tr).length ≤ 8191 ∧
    Ends trailing size ((join S ++ tr).take size) ok r

theorem collapse_len : ∀ s, (collapse s).length ≤ s.length
  | [] => Nat.le_refl _
  | c :: s => by
    rw [collapse]
    have := collapse_len s
    split <;> simp <;> omega

theorem combine_tail (trailing : Bool) (size n : Nat) (f3 b r nm tl3 : List Nat) (hf : f3 = fix nm ++ 0 :: tl3)
    (hb : b.length = 8192) (hl : b[8191]? ≠ some 47) (hn : n ≤ 8191) (hhead : (b.take n).head? = some 47) (hs : size ≤ r.length) :
    ∃ ok r', (do
        let q ← nameLoop 8191 f3 (fix nm).length (f3.length + 1) 0 n b
        match q with
        | none => .ok (false, r)
        | some (n, b) => do
          let (x2, r) ← outLoop b n size (b.length + 1) 0 0 r
          absEnd trailing size x2 r : CRes (Bool × List Nat)) = .ok (ok, r') ∧ r'.length = r.length ∧
      ((ok = false ∧ 8191 < n + (fix nm).length) ∨ Done trailing size (comps (proc (b.take n) (fix nm))) ok r') := by
  obtain ⟨q, h1, h2, h3⟩ := nameLoop_ok 8191 f3 tl3 (fix nm).length (f3.length + 1) 0 n b (fix nm) (by rw [hf]; rfl) (by omega)
    (by rw [hf]; simp; omega) hn hb
  rw [h1, ok_bind]
  cases q with
  | none => exact ⟨false, r, rfl, rfl, .inl ⟨rfl, h2 rfl⟩⟩
  | some p =>
    obtain ⟨n', b'⟩ := p
    obtain ⟨g1, g2, g3, g4, _⟩ := h3 n' b' rfl
    have hlen : (proc (b.take n) (fix nm)).length ≤ 8191 := by rw [← g3, List.length_take]; omega
    dsimp only
    obtain ⟨r', k1, k2, k3⟩ := outLoop_ok b' n' size g1 g2 (by rw [g4]; exact hl) (b'.length + 1) 0 0 r (by omega) hs (by omega)
      (by omega)
    rw [k1, ok_bind]
    dsimp only
    rw [Nat.zero_add, List.drop_zero, Nat.sub_zero, g3] at *
    rw [List.take_zero, List.nil_append] at k3
    have hph := proc_head ((fix nm).length + 1) (b.take n) (fix nm) (by omega) (.inl hhead)
    obtain ⟨tr, t1, t2, t3⟩ := collapse_abs _ hph
    obtain ⟨ok, r2, e1, e2, e3⟩ := absEnd_ok trailing size r' _ k3 (by omega) (by rw [List.length_take]; omega)
    have := collapse_len (proc (b.take n) (fix nm))
    refine ⟨ok, r2, e1, by omega, .inr ⟨tr, t1, t2, by rw [← t3]; omega, ?_⟩⟩
    rw [← t3]
    exact e3

theorem withSlash_len (bs : List Nat) : (withSlash bs).length ≤ bs.length + 1 := by
  unfold withSlash
  split <;> simp

theorem combine_ok (trailing : Bool) (size : Nat) (f3 b r nm bs tl3 tl2 : List Nat) (hf : f3 = fix nm ++ 0 :: tl3)
    (hnm0 : 0 ∉ nm) (hbs0 : 0 ∉ bs) (hbh : bs.head? = some 47) (hb2 : b = withSlash bs ++ 0 :: tl2)
    (hb : b.length = 8192) (hl : b[8191]? ≠ some 47) (hs : size ≤ r.length) :
    ∃ ok r', combine trailing size f3 b r = .ok (ok, r') ∧ r'.length = r.length ∧
      ((ok = false ∧ 8189 < bs.length + nm.length) ∨ Done trailing size (stack bs nm) ok r') := by
  have hw0 : 0 ∉ withSlash bs := by
    unfold withSlash
    split
    · exact hbs0
    · simpa using hbs0
  have hwh : (withSlash bs).head? = some 47 := by
    unfold withSlash
    split
    · exact hbh
    · cases bs with
      | nil => cases hbh
      | cons c t => exact hbh
  obtain ⟨i3, h3, h3l⟩ := info_length (fix nm) tl3 (fix_no_zero hnm0)
  obtain ⟨i2, h2, h2l⟩ := info_length (withSlash bs) tl2 hw0
  have hfl := fix_len nm
  have hwl := withSlash_len bs
  have hwlt : (withSlash bs).length + 1 ≤ 8192 := by rw [hb2] at hb; simp at hb; omega
  unfold combine
  rw [hf, h3, ok_bind]
  rw [hb2, h2, ok_bind]
  rw [← hb2, ← hf]
  have hc : rd f3 0 = .ok ((fix nm).headD 0) := by rw [hf]; cases fix nm <;> rfl
  rw [hc, ok_bind, h2l, h3l]
  unfold stack
  have hfh := fix_head nm
  by_cases hh : nm.head? = some 47
  · have hh2 := hfh.2 hh
    have hd : (fix nm).headD 0 = 47 := by
      cases hfx : fix nm with
      | nil => rw [hfx] at hh2; cases hh2
      | cons c t => rw [hfx] at hh2; simpa using hh2
    rw [if_pos hh, if_pos hd]
    dsimp only
    rw [if_neg (by omega), if_pos rfl, wr_at _ (by omega), ok_bind, ok_bind]
    dsimp only
    have hb' : (b.take 0 ++ 47 :: b.drop (0 + 1)).length = 8192 := by rw [len_wr _ (by omega)]; exact hb
    have hl' : (b.take 0 ++ 47 :: b.drop (0 + 1))[8191]? ≠ some 47 := by
      have := congrArg (fun l => l[0]?) (drop_wr (y := 8191) 47 (show 0 < b.length by omega) (by omega))
      simp only [List.getElem?_drop, Nat.add_zero] at this
      rw [this]
      exact hl
    have ht : (b.take 0 ++ 47 :: b.drop (0 + 1)).take 1 = [47] := rfl
    obtain ⟨ok, r', g1, g2, g3⟩ := combine_tail trailing size 1 f3 _ r nm tl3 hf hb' hl' (by omega) (by rw [ht]; rfl) hs
    refine ⟨ok, r', g1, g2, ?_⟩
    rcases g3 with ⟨g3, g4⟩ | g3
    · exact .inl ⟨g3, by omega⟩
    · rw [ht, proc_abs nm hh] at g3
      exact .inr g3
  · have hd : (fix nm).headD 0 ≠ 47 := by
      intro e
      apply hh
      apply hfh.1
      cases hfx : fix nm with
      | nil => rw [hfx] at e; cases e
      | cons c t => rw [hfx] at e; simpa using e
    rw [if_neg hh, if_neg hd]
    dsimp only
    by_cases hbig : (withSlash bs).length ≥ 8191
    · rw [if_pos hbig]
      refine ⟨false, r, rfl, rfl, .inl ⟨rfl, ?_⟩⟩
      have hpos : 0 < nm.length ∨ nm = [] := by cases nm <;> simp
      rcases hpos with hpos | rfl
      · omega
      · omega
    · rw [if_neg hbig]
      have hne : (withSlash bs).length ≠ 0 := by
        intro e
        rw [List.length_eq_zero_iff.1 e] at hwh
        cases hwh
      rw [if_neg hne, ok_bind]
      dsimp only
      have ht : b.take (withSlash bs).length = withSlash bs := by rw [hb2]; simp
      obtain ⟨ok, r', g1, g2, g3⟩ := combine_tail trailing size (withSlash bs).length f3 b r nm tl3 hf hb hl (by omega)
        (by rw [ht]; exact hwh) hs
      refine ⟨ok, r', g1, g2, ?_⟩
      rcases g3 with ⟨g3, g4⟩ | g3
      · exact .inl ⟨g3, by omega⟩
      · rw [ht, proc_rel _ bs nm hh (withSlash_last bs) (comps_withSlash bs)] at g3
        exact .inr g3

/-- `GetAbsoluteFilename` for every base directory, name, buffer and option. -/
theorem absolute_does (sgn : Bool) (junk2 junk3 result f rest br : List Nat) (size : Nat) (bd cwd : Option (List Nat))
    (trailing : Bool) (h2 : junk2.length = 8192) (h3 : junk3.length = 8192) (hl : junk2[8191]? ≠ some 47)
    (hs : size ≤ result.length) (hf : 0 ∉ f) (hb0 : ∀ d, bd = some d → 0 ∉ d) (hc0 : ∀ s, cwd = some s → 0 ∉ s) :
    ∃ ok r, absolute sgn junk2 junk3 result size (bd.map (· ++ 0 :: br)) cwd (f ++ 0 :: rest) trailing = .ok (ok, r) ∧
      r.length = result.length ∧
      ((ok = false ∧ ¬ (Accepted sgn 8192 f ∧ ∃ bs, Base sgn bd cwd bs ∧ bs.head? = some 47 ∧ bs.length + f.length ≤ 8189)) ∨
       (Accepted sgn 8192 f ∧ ∃ bs, Base sgn bd cwd bs ∧ bs.head? = some 47 ∧ Done trailing size (stack bs (slashed f)) ok r)) := by
  unfold absolute
  obtain ⟨ok1, f3, g1, g2, g3, g4⟩ := getPlatform_ok sgn f rest junk3 8192 hf (by omega)
  rw [g1, ok_bind]
  dsimp only
  cases ok1 with
  | false => exact ⟨false, result, rfl, rfl, .inl ⟨rfl, fun h => nomatch g3.2 h.1⟩⟩
  | true =>
    have hacc := g3.1 rfl
    rw [if_neg (by simp)]
    have g4 := g4 rfl
    have hf1 := hacc.2.1
    have hlen : (slashed f ++ 0 :: junk3.drop (f.length + 1)).length = 8192 := by rw [← g4, g2, h3]
    obtain ⟨ok2, f3', k1, k2, k3, k4⟩ := dotName_ok (slashed f) _ (slashed_no_zero hf) hlen
    rw [g4, k1, ok_bind]
    dsimp only
    rw [slashed_len] at k4
    cases ok2 with
    | false =>
      refine ⟨false, result, rfl, rfl, .inl ⟨rfl, ?_⟩⟩
      rintro ⟨_, bs, _, _, hle⟩
      cases k4 (by omega)
    | true =>
      rw [if_neg (by simp)]
      obtain ⟨tl3, hf3⟩ := k3 rfl
      obtain ⟨ok3, b, m1, m2⟩ := baseDir_ok sgn bd cwd br junk2 hb0 hc0 h2
      rw [m1, ok_bind]
      dsimp only
      rcases m2 with ⟨rfl, m2⟩ | ⟨rfl, bs, m2, m3, m4, m5, m6⟩
      · refine ⟨false, result, rfl, rfl, .inl ⟨rfl, ?_⟩⟩
        rintro ⟨_, bs, x1, x2, _⟩
        exact m2 ⟨bs, x1, x2⟩
      · rw [if_neg (by simp)]
        have hbl : (bs ++ 0 :: junk2.drop (bs.length + 1)).length = 8192 := by simp; omega
        have hcell := last_cell hl m5
        have hne : bs ≠ [] := by intro e; rw [e] at m3; cases m3
        obtain ⟨ok4, b2, p1, p2, p3⟩ := slashBase_ok bs _ m4 hne hbl hcell
        rw [m6, p1, ok_bind]
        dsimp only
        have huniq : ∀ bs', Base sgn bd cwd bs' → bs' = bs := by
          rintro bs' (⟨d, e, _, e2⟩ | ⟨e, e2, _⟩)
          · rcases m2 with ⟨d', e', _, e2'⟩ | ⟨e', _, _⟩
            · rw [e] at e'; cases e'; rw [e2, e2']
            · rw [e] at e'; cases e'
          · rcases m2 with ⟨d', e', _, e2'⟩ | ⟨e', e2', _⟩
            · rw [e] at e'; cases e'
            · rw [e2] at e2'; cases e2'; rfl
        cases ok4 with
        | false =>
          refine ⟨false, result, rfl, rfl, .inl ⟨rfl, ?_⟩⟩
          rintro ⟨_, bs', x1, x2, hle⟩
          rw [huniq bs' x1] at hle
          have := p2 rfl
          omega
        | true =>
          rw [if_neg (by simp)]
          obtain ⟨q1, q2, tl2, q3⟩ := p3 rfl
          obtain ⟨ok, r, z1, z2, z3⟩ := combine_ok trailing size f3' b2 result (slashed f) bs tl3 tl2 hf3 (slashed_no_zero hf) m4 m3
            q3 q1 q2 hs
          refine ⟨ok, r, z1, z2, ?_⟩
          rw [slashed_len] at z3
          rcases z3 with ⟨z3, z4⟩ | z3
          · left
            refine ⟨z3, ?_⟩
            rintro ⟨_, bs', x1, x2, hle⟩
            rw [huniq bs' x1] at hle
            omega
          · exact .inr ⟨hacc, bs, m2, m3, z3⟩

end Verif.Path
