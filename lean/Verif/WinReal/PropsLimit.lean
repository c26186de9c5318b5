import Verif.WinReal.PropsLink

/-!
# C112: real names on Windows that are too long
-/

namespace Verif.WinReal
open Spec
open Verif.Utf8.Spec
open Verif.WinOps (text_append text_ascii)
open Verif.WinPath.Spec (pieces uni canon normal Holds)
open Verif.WinAbs (Fine Usable Rooted Split sw sw_append sw_sw sw_len split_volume sw_join)
open Verif.WinAbs.Spec (comps volume path)
open Verif.WinLink (Reparse link_text target_first cap_le)
open Verif.WinLink.Spec (target)
open Verif.Path (join cstr_ok join_append)

theorem copyChunk_full (t tl : List Nat) : ∀ (c : List Nat) (k x x2 : Nat) (a f3 : List Nat),
    92 ∉ c → k = c.length + t.length → x = a.length → x2 + c.length > 8191 → x2 ≤ 8191 → f3.length = 8192 →
    copyChunk (a ++ (c ++ t) ++ 0 :: tl) k x x2 f3 = .ok none
  | [], k, x, x2, a, f3, _, hk, hx, hx2, hl, _ => by
    rw [List.length_nil] at hx2
    omega
  | d :: c, k, x, x2, a, f3, h9, hk, hx, hx2, hl, hb => by
    have hd : d ≠ 92 := fun e => h9 (by simp [e])
    rw [List.length_cons] at hx2
    rw [hk, List.length_cons, show c.length + 1 + t.length = (c.length + t.length) + 1 by omega, copyChunk]
    have e : a ++ (d :: c ++ t) ++ 0 :: tl = (a ++ [d]) ++ (c ++ t) ++ 0 :: tl := by simp
    rw [e, show rd ((a ++ [d]) ++ (c ++ t) ++ 0 :: tl) x = .ok d by simp [rd, hx], ok_bind, if_neg hd]
    by_cases hf : x2 ≥ 8191
    · rw [if_pos hf]
    · rw [if_neg hf, wr_ok _ (by omega), ok_bind,
        copyChunk_full t tl c _ (x + 1) (x2 + 1) (a ++ [d]) (f3.set x2 d) (fun h => h9 (List.mem_cons_of_mem _ h)) rfl
          (by simp [hx]) (by omega) (by omega) (by simpa using hb)]

/-- A round that has no room for the component. -/
theorem step_full (S : Sys) (E : Env) {n pre p c t : List Nat} {st : St}
    (h : At n pre (92 :: (c ++ t)) p st) (h9 : 92 ∉ c) (hc : c ≠ []) (ha : ∀ d ∈ c, d < 0x80)
    (hr : (text 1 (p ++ 92 :: c)).length > 8191) (hp : (text 1 p).length ≤ 8191) :
    step S E st = .ok none := by
  obtain ⟨⟨tl, hf2⟩, hn, hsp, hlen, _, ⟨R, hf3⟩, hsz, hx2, _⟩ := h
  have htx : (text 1 (p ++ 92 :: c)).length = (text 1 p).length + 1 + c.length := by
    rw [text_append, Utf8.text1_cons, text_ascii ha]
    simp [enc, enc8]
    omega
  unfold step
  by_cases hfull : st.x2 ≥ 8191
  · rw [if_pos hfull]
  · rw [if_neg hfull, wr_ok _ (by omega), ok_bind]
    dsimp only
    have hh : (c ++ t).head? ≠ some 92 := by
      cases c with
      | nil => exact absurd rfl hc
      | cons x c =>
        intro e
        have : x = 92 := Option.some.inj e
        exact h9 (by simp [this])
    have hsub : st.len - st.sp = 1 + (c ++ t).length := by
      rw [hlen, hsp, hn]; simp; omega
    have e0 : pre ++ 92 :: (c ++ t) ++ 0 :: tl = pre ++ (List.replicate 1 92 ++ (c ++ t)) ++ 0 :: tl := by simp
    rw [hf2, hn, hsub, e0, skip_ok pre (c ++ t) tl hh 1 _ _ pre rfl hsp rfl, ok_bind]
    have hsub2 : st.len - (st.sp + 1) = c.length + t.length := by
      rw [hlen, hsp, hn]; simp; omega
    have e1 : pre ++ (List.replicate 1 92 ++ (c ++ t)) ++ 0 :: tl = (pre ++ [92]) ++ (c ++ t) ++ 0 :: tl := by simp
    rw [hsub2, e1, copyChunk_full t tl c _ _ _ (pre ++ [92]) _ h9 rfl (by simp [hsp]) (by omega) (by omega) (by simpa using hsz), ok_bind]

/-- Names that become too long on the way: if the real name so far and the next component have more than 8191 bytes, `Realpath` returns false and gives
nothing. -/
theorem win_realpath_too_long (S : Sys) (E : Env) (hE : E.Good) (result f rest q c : List Nat) (size : Nat)
    (cs ds : List (List Nat)) (hf : Fine f) (hu : uni <+: normal (canon f)) (hl : (normal (canon f)).length ≤ 8180)
    (hp : path (normal (canon f)) = (cs ++ c :: ds).flatMap (92 :: ·)) (hc : ∀ g ∈ cs ++ c :: ds, g ≠ [] ∧ 92 ∉ g)
    (hwk : Walk S (volume (normal (canon f))) cs q) (hq : Room q) (hlong : (text 1 (q ++ 92 :: c)).length > 8191) :
    realpath S E result size (f ++ 0 :: rest) = .ok (false, result) := by
  obtain ⟨st, h1, h2, h3⟩ := realpath_start S E hE result f rest size hf hu hl
  have h0 := fine_chars hf
  have hpl : (path (normal (canon f))).length ≤ (normal (canon f)).length := by unfold path; simp
  rw [hp] at h1 hpl
  have hcs : ∀ g ∈ cs ++ c :: ds, Comp g := by
    intro g hg
    refine ⟨(hc g hg).1, (hc g hg).2, ?_⟩
    intro d hd
    refine h0 d (List.mem_of_mem_drop (i := (volume (normal (canon f))).length) ?_)
    show d ∈ path (normal (canon f))
    rw [hp]
    exact List.mem_flatMap.2 ⟨g, hg, List.mem_cons_of_mem _ hd⟩
  obtain ⟨pre', st2, k', b1, b2, b3, b4⟩ := loop_reach S E hE hwk _ st (21 * 8192 + 1) h1 hcs (by omega)
  cases k' with
  | zero => omega
  | succ k =>
    have hcc := hcs c (by simp)
    have b2' : At (normal (canon f)) pre' (92 :: (c ++ ds.flatMap (92 :: ·))) q st2 := by simpa using b2
    have hlt : st2.sp < st2.len := by
      rw [b2'.sp, b2'.len, b2'.split, List.length_append, List.length_cons]
      omega
    rw [h3, b1, loop, if_pos hlt, step_full S E b2' hcc.2.1 hcc.1 (fun d hd => (hcc.2.2 d hd).2) hlong (by unfold Room at hq; omega)]
    rfl

theorem flat_sublist {l₁ l₂ : List (List Nat)} (h : l₁.Sublist l₂) :
    (l₁.flatMap (92 :: ·)).length ≤ (l₂.flatMap (92 :: ·)).length := by
  induction h with
  | slnil => exact Nat.le_refl _
  | cons c _ ih => rw [List.flatMap_cons, List.length_append]; omega
  | cons_cons c _ ih => rw [List.flatMap_cons, List.flatMap_cons, List.length_append, List.length_append]; omega

theorem walk_short : ∀ (gs S : List (List Nat)),
    ((Verif.Path.Spec.walk S gs).flatMap (92 :: ·)).length ≤ (S.flatMap (92 :: ·)).length + (gs.flatMap (92 :: ·)).length
  | [], S => by simp [Verif.Path.Spec.walk]
  | g :: gs, S => by
    rw [Verif.Path.Spec.walk, List.flatMap_cons, List.length_append]
    split
    · have := walk_short gs S
      omega
    · split
      · have h1 := walk_short gs S.dropLast
        have h2 := flat_sublist (List.dropLast_sublist S)
        omega
      · have h1 := walk_short gs (S ++ [g])
        rw [List.flatMap_append, List.length_append, List.flatMap_cons, List.flatMap_nil, List.append_nil] at h1
        omega

theorem pieces_flat : ∀ s : List Nat, ((pieces s).flatMap (92 :: ·)).length = s.length + 1
  | [] => rfl
  | c :: s => by
    have ih := pieces_flat s
    rw [pieces]
    split
    · rw [List.flatMap_cons, List.length_append, ih, List.length_cons, List.length_cons, List.length_nil]
      omega
    · obtain ⟨g, gs, h⟩ := Verif.WinPath.pieces_cons s
      rw [h] at ih ⊢
      simp only [List.flatMap_cons, List.length_append, List.length_cons] at ih ⊢
      omega

/-- A full name does not get longer by more than its prefix. -/
theorem own_short (t : List Nat) : (volume (normal (canon t)) ++ (below t).flatMap (92 :: ·)).length ≤ t.length + 9 := by
  have h1 := normal_short (canon t)
  rw [Verif.WinPath.canon_len] at h1
  have h2 := (volume_prefix (normal (canon t))).length_le
  have h3 := walk_short (comps (path (normal (canon t)))) []
  have h4 : ((comps (path (normal (canon t)))).flatMap (92 :: ·)).length ≤ (path (normal (canon t))).length + 1 := by
    rw [← pieces_flat]
    exact flat_sublist List.filter_sublist
  have h5 : (path (normal (canon t))).length = (normal (canon t)).length - (volume (normal (canon t))).length := by
    unfold path
    rw [List.length_drop]
  rw [List.length_append]
  unfold below
  rw [List.flatMap_nil, List.length_nil] at h3
  omega

/-- Following a link whose target has no room. -/
theorem follow_long {E : Env} (hE : E.Good) (hjl : E.junk2[8191]? ≠ some 92) {n pre rem p t : List Nat} {vs : List (List Nat)} {st : St} {m : Reparse}
    (h : At n pre rem p st) {rs : List (List Nat)} (hrs : rem = sw (join rs)) (hv : Rooted vs) (hvp : sw (join vs) <+: pre) (hn : n.length ≤ 8180)
    (h0 : ∀ c ∈ n, 0 < c ∧ c < 0x80) (hm : LeadsTo m t)
    (hroom : (volume (normal (canon t)) ++ ((below t).flatMap (92 :: ·) ++ rem)).length > 8190) :
    follow E st m = .ok none := by
  obtain ⟨hst, hx, hfirst, hlen, hne, ht, hf, hu, hd1, hd2⟩ := hm
  have hrem : rem = [] ∨ rem.head? = some 92 := by
    rw [hrs]
    rcases Verif.Path.join_head rs with h | ⟨t, h⟩
    · left; rw [h]; rfl
    · right; rw [h]; rfl
  have hc := cap_le m.tag
  have ho := hfirst.1
  obtain ⟨rest', e⟩ := target_first hst hfirst (by omega) hne
  have hta : ∀ c ∈ t, c < 0x80 := fun c hc => (hf.2.2.1 c hc).2
  rw [ht, ← Verif.WinDir.text2_ascii hta] at e
  have hgt : GoodText t := by
    refine ⟨fun c hc => Verif.WinOps.ascii_valid (hta c hc), ?_⟩
    intro c hc
    have := hta c (List.mem_of_mem_head? hc)
    unfold Combining
    omega
  obtain ⟨k1, T, lp, k2, k3⟩ := link_text (result := E.f4) (size := 8192) hgt (by omega) (by omega)
    (by rw [hE.f4]) hx e
  rw [text_ascii hta] at k2 k3
  obtain ⟨tl, hf2⟩ := h.name
  have hspl := h.split
  have hz : 0 ∉ n := fun hm => absurd (h0 0 hm).1 (by omega)
  have hpz : 0 ∉ pre := fun hm => hz (by rw [hspl]; exact List.mem_append_left _ hm)
  have hf2l := h.room
  have hbase : wr st.f2 st.sp 0 = .ok (pre ++ 0 :: ((rem ++ 0 :: tl).drop 1)) := by
    rw [hf2, hspl, h.sp]
    cases rem with
    | nil =>
      rw [List.append_nil, wr_append' _ tl 0 0 _ rfl]
      rfl
    | cons x rem =>
      rw [List.append_assoc, List.cons_append, wr_append' _ _ x 0 _ rfl]
      rfl
  have hdu : Usable pre := by
    obtain ⟨w, hw⟩ := hvp
    have hl := congrArg List.length hspl
    rw [List.length_append] at hl
    rw [← hw] at hpz hl ⊢
    exact (fit_rooted hv w hpz (by omega)).usable
  have hnl : (normal (canon t)).length ≤ 8188 := by
    have h1 := normal_short (canon t)
    rw [Verif.WinPath.canon_len] at h1
    have h2 : t.length ≤ m.len / 2 := by
      rw [← ht]
      unfold target
      rw [List.length_take]
      omega
    omega
  obtain ⟨r, us, S, a1, a2, a3, a4, a5, a6, ⟨R, a7⟩⟩ := absolute_own (sgn := E.sgn) (reg := E.reg) (result := st.f3) (size := 8192) (d := pre) (f := t)
    (rest := T ++ E.f4.drop (t ++ 0 :: T).length) (br := (rem ++ 0 :: tl).drop 1) hE.junk2 hE.junk3 hjl (by rw [h.size]) hf hnl hu hdu hd1 hd2
    (by
      have h1 := own_short t
      have h2 : t.length ≤ m.len / 2 := by
        rw [← ht]
        unfold target
        rw [List.length_take]
        omega
      omega)
  have e1 : sw (join (us ++ S)) = volume (normal (canon t)) ++ (below t).flatMap (92 :: ·) := by
    rw [join_append, sw_append, a5, a6, ← sw_join]
  have hx0 : ∀ c ∈ sw (join (us ++ S)), 0 < c ∧ c < 0x80 := by
    intro c hc
    rw [e1] at hc
    rcases List.mem_append.1 hc with hc | hc
    · exact fine_chars hf c ((volume_prefix _).subset hc)
    · obtain ⟨g, hg, hc⟩ := List.mem_flatMap.1 hc
      rcases List.mem_cons.1 hc with rfl | hc
      · decide
      · exact fine_chars hf c (below_mem hg c hc)
  have hback : (if st.sp < st.len then wr (pre ++ 0 :: (rem ++ 0 :: tl).drop 1) st.sp 92 else .ok (pre ++ 0 :: (rem ++ 0 :: tl).drop 1)) =
      .ok (pre ++ (rem ++ 0 :: tl)) := by
    rw [h.sp, h.len, hspl, List.length_append]
    rcases hrem with rfl | hrem
    · rw [if_neg (by simp)]; rfl
    · cases rem with
      | nil => cases hrem
      | cons x rem =>
        obtain rfl : x = 92 := Option.some.inj hrem
        rw [if_pos (by simp), wr_append' _ _ 0 92 _ rfl]
        rfl
  have hsub : st.len - st.sp = rem.length := by
    rw [h.sp, h.len, hspl, List.length_append]; omega
  have hsub2 : (sw (join (us ++ S))).length + st.len - st.sp = (sw (join (us ++ S))).length + rem.length := by
    have := h.sp; have := h.len; have := congrArg List.length hspl
    rw [List.length_append] at this
    omega
  have hxz : 0 ∉ sw (join (us ++ S)) := fun hm => absurd (hx0 0 hm).1 (by omega)
  unfold follow
  rw [k1, ok_bind, k3, ok_bind]
  dsimp only
  rw [hbase, ok_bind, List.append_assoc, List.cons_append, a1, ok_bind]
  dsimp only
  rw [if_neg (by decide), hback, ok_bind, a7, cstr_ok _ R hxz, ok_bind, hsub2, if_pos]
  rw [e1]
  simp only [List.length_append] at hroom ⊢
  omega

/-- If the target of a mount point and the rest of the name have more than 8190 bytes, `Realpath` returns false and gives nothing. -/
theorem win_realpath_link_too_long (S : Sys) (E : Env) (hE : E.Good) (hjl : E.junk2[8191]? ≠ some 92) (result f rest q c t : List Nat) (size : Nat)
    (cs ds : List (List Nat)) (hf : Fine f) (hu : uni <+: normal (canon f)) (hl : (normal (canon f)).length ≤ 8180)
    (hp : path (normal (canon f)) = (cs ++ c :: ds).flatMap (92 :: ·)) (hc : ∀ g ∈ cs ++ c :: ds, g ≠ [] ∧ 92 ∉ g)
    (hwk : Walk S (volume (normal (canon f))) cs q) (hroom : Room (q ++ 92 :: c)) (e : Found) (m : Reparse)
    (hfd : S.find (text 2 (q ++ 92 :: c)) = some e) (hil : IsLink e) (hrp : S.reparse (text 2 (q ++ 92 :: c)) = some m) (hm : LeadsTo m t)
    (hlong : (volume (normal (canon t)) ++ (below t ++ ds).flatMap (92 :: ·)).length > 8190) :
    realpath S E result size (f ++ 0 :: rest) = .ok (false, result) := by
  obtain ⟨pre, st, k, h1, h2, _, _, h5⟩ := realpath_reach S E hE result f rest q c size cs ds hf hu hl hp hc hwk hroom
  obtain ⟨h0, vs, hb⟩ := started hf hu hp
  have hm' : LeadsTo { m with tag := e.tag } t :=
    ⟨⟨hm.stored.off, hm.stored.len, hm.stored.inside, hm.stored.room⟩, hm.units, hm.first, hm.short, hm.some, hm.target, hm.fine, hm.full, hm.host⟩
  have h1' : At (normal (canon f)) pre (ds.flatMap (92 :: ·)) (q ++ 92 :: c) { st with links := st.links + 1 } :=
    ⟨h1.name, h1.split, h1.sp, h1.len, h1.whole, h1.buf, h1.size, h1.x2, h1.room⟩
  have hpre : sw (join vs) <+: pre := by
    obtain ⟨w, hw⟩ := volume_prefix (normal (canon f))
    have hpw : path (normal (canon f)) = w := by
      unfold path
      conv => lhs; rw [← hw]
      rw [hw, ← hw, List.drop_left']
      rw [hw]
    have hsp := h1.split
    rw [← hw, ← hpw, hp, List.flatMap_append, List.flatMap_cons, ← List.append_assoc, ← List.append_assoc] at hsp
    have := List.append_cancel_right hsp
    rw [← this, List.append_assoc]
    exact hb.2.2.1.trans (List.prefix_append _ _)
  rw [List.flatMap_append] at hlong
  have hfol := follow_long hE hjl h1' (sw_flat ds) hb.1 hpre hl h0 hm' hlong
  rw [h5, hfd]
  unfold IsLink at hil
  dsimp only [found]
  rw [if_pos hil, if_neg (by omega), hrp]
  dsimp only
  rw [hfol]
  rfl

/-! ## Cases -/

/-- `C:\m\` and a component of `n` characters. -/
def deep (n : Nat) : List Nat := 67 :: 58 :: 92 :: 109 :: 92 :: List.replicate n 100

theorem deep_canon (n : Nat) : canon (deep n) = deep n := by
  unfold canon deep
  simp

theorem deep_normal (n : Nat) : normal (deep n) = uni ++ deep n := by
  unfold normal deep
  rw [if_neg (by unfold WinPath.Spec.Begins; simp [WinPath.Spec.unc, WinPath.Spec.fold]), if_neg (by simp [uni]),
    if_pos (by simp [WinPath.Spec.Drive])]
  unfold WinPath.Spec.upperDrive
  rw [if_pos (by simp [WinPath.Spec.Drive])]
  rfl

theorem deep_body (n : Nat) : WinPath.Spec.body (deep n) = 92 :: 109 :: 92 :: List.replicate n 100 := by
  unfold WinPath.Spec.body deep
  rw [if_neg (by unfold WinPath.Spec.Begins; simp [WinPath.Spec.unc, WinPath.Spec.fold]), if_neg (by simp [uni])]
  unfold WinPath.Spec.afterDrive
  rw [if_pos (by simp [WinPath.Spec.Drive])]
  rfl

theorem deep_pieces (n : Nat) : pieces (92 :: 109 :: 92 :: List.replicate n 100) = [[], [109], List.replicate n 100] := by
  have h : pieces (List.replicate n 100) = [List.replicate n 100] := by
    have := WinPath.pieces_append (List.replicate n 100) [] [] [] (by simp [List.mem_replicate]) rfl
    simpa using this
  rw [pieces, if_pos rfl, pieces, if_neg (by decide), pieces, if_pos rfl, h]

theorem deep_fine (n : Nat) (h1 : 6 < n) (h2 : n ≤ 8180) : Fine (deep n) := by
  refine ⟨by simp [deep], by simp [deep]; omega, ?_, ?_, ?_, ?_, ?_, ?_⟩
  · intro c hc
    simp only [deep, List.mem_cons, List.mem_replicate] at hc
    omega
  · rw [deep_canon]; simp [WinPath.Spec.vol, deep]
  · rw [deep_canon]; simp [uni, deep]
  · rw [deep_canon]
    unfold WinPath.Spec.Device WinPath.Spec.Begins deep
    simp [WinPath.Spec.fold]
  · rw [deep_canon]
    unfold WinPath.Spec.Acceptable
    rw [deep_body, deep_pieces]
    refine ⟨?_, ?_⟩
    · intro c hc
      simp only [List.mem_cons, List.mem_replicate] at hc
      unfold WinPath.Spec.Forbidden
      omega
    · intro g hg
      simp only [List.mem_cons, List.not_mem_nil, or_false] at hg
      rcases hg with rfl | rfl | rfl
      · decide
      · decide
      · have e : WinPath.Spec.stem (List.replicate n 100) = List.replicate n 100 := by
          unfold WinPath.Spec.stem
          rw [List.takeWhile_replicate]
          simp
        rw [e]
        rintro (h | h | h | h | h | ⟨d, _, _, h | h⟩) <;> (have := WinPath.same_len h; simp at this; omega)
  · rw [deep_canon, deep_body, deep_pieces]
    intro g hg hr
    simp at hg
    subst hg
    exact absurd hr (by decide)

theorem deep_volume (n : Nat) : volume (normal (canon (deep n))) = lit "\\\\?\\C:" := by
  rw [deep_canon, deep_normal]
  unfold volume Verif.WinAbs.Spec.prefixLen deep
  rw [if_neg (by unfold WinPath.Spec.Begins; simp [WinPath.Spec.unc, WinPath.Spec.fold, uni]), if_pos (List.prefix_append _ _)]
  rfl

theorem deep_path (n : Nat) : path (normal (canon (deep n))) = [[109], List.replicate n 100].flatMap (92 :: ·) := by
  unfold path
  rw [deep_volume, deep_canon, deep_normal]
  simp [deep, uni, lit]

/-- A system in which `\\?\C:\m` is found and has the given name, and leads to the given place if it is a link. -/
def one (e : Found) (m : Option Reparse) : Sys :=
  ⟨fun w => if w = lit "\\\\?\\C:\\m" then some e else none, fun _ => m, fun _ => none⟩

/-- The directory `m` has a longer name, with which the path is too long. -/
theorem too_long_case (n k : Nat) (h1 : 6 < n) (h2 : n + k > 8183) (h3 : n ≤ 8171) (h4 : k ≤ 8173) (E : Env) (hE : E.Good)
    (result rest : List Nat) (size : Nat) :
    realpath (one ⟨16#32, .other, List.replicate k 98⟩ none) E result size (deep n ++ 0 :: rest) = .ok (false, result) := by
  have ha : ∀ c ∈ lit "\\\\?\\C:" ++ 92 :: List.replicate k 98, c < 0x80 := by
    intro c hc
    rcases List.mem_append.1 hc with hc | hc
    · exact (by decide : ∀ c ∈ lit "\\\\?\\C:", c < 0x80) c hc
    · rcases List.mem_cons.1 hc with rfl | hc
      · decide
      · rw [List.mem_replicate] at hc; omega
  have hroom : Room (lit "\\\\?\\C:" ++ 92 :: List.replicate k 98) := by
    unfold Room
    rw [text_ascii ha]
    simp [lit]
    omega
  refine win_realpath_too_long _ E hE result (deep n) rest (lit "\\\\?\\C:" ++ 92 :: List.replicate k 98) (List.replicate n 100) size [[109]] []
    (deep_fine n h1 (by omega)) ?_ ?_ (deep_path n) ?_ ?_ hroom ?_
  · rw [deep_canon, deep_normal]; exact List.prefix_append _ _
  · rw [deep_canon, deep_normal]; simp [deep, uni]; omega
  · intro g hg
    simp only [List.cons_append, List.nil_append, List.mem_cons, List.not_mem_nil, or_false] at hg
    rcases hg with rfl | rfl
    · decide
    · refine ⟨by rw [ne_eq, List.replicate_eq_nil_iff]; omega, by simp [List.mem_replicate]⟩
  · rw [deep_volume]
    refine .entry (l := List.replicate k 98) (e := ⟨16#32, .other, List.replicate k 98⟩) (by unfold Room; decide) (by rfl) (fun h => h.2 rfl) ?_ ?_
      hroom (.nil _)
    · exact (Verif.WinDir.text2_ascii (fun c hc => ha c (by simp [hc]))).symm
    · refine ⟨fun c hc => ?_, fun c hc => ?_⟩
      · rw [List.mem_replicate] at hc
        refine ⟨Verif.WinOps.ascii_valid (by omega), by omega⟩
      · have := List.mem_of_mem_head? hc
        rw [List.mem_replicate] at this
        unfold Combining
        omega
  · rw [text_ascii]
    · simp [lit]; omega
    · intro c hc
      rcases List.mem_append.1 hc with hc | hc
      · exact ha c hc
      · rcases List.mem_cons.1 hc with rfl | hc
        · decide
        · rw [List.mem_replicate] at hc; omega

/-- The mount point `m` leads to a place that makes the name too long. -/
theorem link_too_long_case (n : Nat) (h2 : n > 8167) (h3 : n ≤ 8171) (E : Env) (hE : E.Good)
    (hjl : E.junk2[8191]? ≠ some 92) (result rest : List Nat) (size : Nat) :
    realpath (one ⟨0x410#32, .mount, lit "m"⟩ (some ⟨.mount, 0, 46, lit "\\??\\D:\\xxxxxxxxxxxxxxxx" ++ [0]⟩)) E result size (deep n ++ 0 :: rest) =
      .ok (false, result) := by
  refine win_realpath_link_too_long _ E hE hjl result (deep n) rest (lit "\\\\?\\C:") [109] (lit "\\??\\D:\\xxxxxxxxxxxxxxxx") size [] [List.replicate n 100]
    (deep_fine n (by omega) (by omega)) ?_ ?_ (deep_path n) ?_ ?_ (by unfold Room; decide) ⟨0x410#32, .mount, lit "m"⟩
    ⟨.mount, 0, 46, lit "\\??\\D:\\xxxxxxxxxxxxxxxx" ++ [0]⟩ (by rfl) (by unfold IsLink; decide) (by rfl)
    ⟨⟨by decide, by decide, by decide, by decide⟩, by decide, ⟨rfl, [], by decide⟩, by decide, by decide, by decide, by decide, by decide,
      by decide⟩ ?_
  · rw [deep_canon, deep_normal]; exact List.prefix_append _ _
  · rw [deep_canon, deep_normal]; simp [deep, uni]; omega
  · intro g hg
    simp only [List.nil_append, List.mem_cons, List.not_mem_nil, or_false] at hg
    rcases hg with rfl | rfl
    · decide
    · refine ⟨by rw [ne_eq, List.replicate_eq_nil_iff]; omega, by simp [List.mem_replicate]⟩
  · rw [deep_volume]; exact .nil _
  · rw [List.flatMap_append, List.length_append, List.length_append, List.flatMap_cons, List.flatMap_nil, List.append_nil, List.length_cons,
      List.length_replicate]
    have e1 : (volume (normal (canon (lit "\\??\\D:\\xxxxxxxxxxxxxxxx")))).length = 6 := by decide
    have e2 : ((below (lit "\\??\\D:\\xxxxxxxxxxxxxxxx")).flatMap (92 :: ·)).length = 17 := by decide
    omega

example (E : Env) (hE : E.Good) (result rest : List Nat) (size : Nat) :
    realpath (one ⟨16#32, .other, List.replicate 184 98⟩ none) E result size (deep 8000 ++ 0 :: rest) = .ok (false, result) :=
  too_long_case 8000 184 (by omega) (by omega) (by omega) (by omega) E hE result rest size

end Verif.WinReal
