import Verif.WinReal.Link

/-!
# C112: real names on Windows, links
-/

namespace Verif.WinReal
open Spec
open Verif.Utf8.Spec
open Verif.WinOps (text_append text_ascii)
open Verif.WinOps.Spec (Wide)
open Verif.WinPath.Spec (uni canon normal Holds)
open Verif.WinAbs (Fit Fine Accepted normal_forms split_volume Rooted Split sw get_ok)
open Verif.WinAbs.Spec (comps volume path)
open Verif.WinLink (fine_ascii Reparse Tag link_text print_first cap_le)
open Verif.WinLink.Spec (Stored TargetFirst PrintFirst target)
open Verif.Path (join)

/-- What the loop starts from. -/
theorem started {f : List Nat} {cs : List (List Nat)} (hf : Fine f) (hu : uni <+: normal (canon f))
    (hp : path (normal (canon f)) = cs.flatMap (92 :: ·)) :
    (∀ c ∈ normal (canon f), 0 < c ∧ c < 0x80) ∧
      ∃ vs, Based vs (volume (normal (canon f))) (volume (normal (canon f))) := by
  refine ⟨fine_chars hf, ?_⟩
  rcases normal_forms (canon f) with ⟨vs, rs, h⟩ | ⟨h, h', _⟩
  · rw [hf.fit.normal] at h
    obtain ⟨_, hv, _⟩ := split_volume h
    refine ⟨vs, h.1, ?_, by rw [hv]; exact List.prefix_refl _, by rw [hv]; exact List.prefix_refl _⟩
    intro c hc
    rw [← hv] at hc
    exact (fine_chars hf c ((volume_prefix _).subset hc)).2
  · rw [hf.fit.normal] at h
    rw [h] at hu
    exact absurd hu h'

/-- C112 (partial), with links: for a name without doubled backslashes and without one at its end, links that name their target first (mount
points) are followed, at most twenty, each beginning the walk again with the target; the result is given exactly if it fits, and the call
returns true exactly if the given name exists.
Missing: symbolic links (`win_realpath_relative_link`), and what `win_realpath_partial` leaves out. -/
theorem win_realpath_links_partial (S : Sys) (E : Env) (hE : E.Good) (hjl : E.junk2[8191]? ≠ some 92) (result f rest r : List Nat) (size : Nat)
    (cs : List (List Nat)) (hs : size ≤ result.length) (hf : Fine f) (hu : uni <+: normal (canon f)) (hl : (normal (canon f)).length ≤ 8180)
    (hp : path (normal (canon f)) = cs.flatMap (92 :: ·)) (hc : ∀ c ∈ cs, c ≠ [] ∧ 92 ∉ c)
    (hr : Real S 20 (volume (normal (canon f))) cs r) (hroom : Room r) :
    ∃ b res, realpath S E result size (f ++ 0 :: rest) = .ok (b, res) ∧ res.length = result.length ∧
      (size < (text 1 r).length + 1 → b = false ∧ res = result) ∧
      ((text 1 r).length + 1 ≤ size →
        Holds res (text 1 r) ∧ (b = true ↔ Accepted E.sgn (text 1 r) ∧ ∃ w, Wide (text 1 r) w ∧ (S.attrs w).isSome)) := by
  obtain ⟨st, h1, h2, h3⟩ := realpath_start S E hE result f rest size hf hu hl
  obtain ⟨h0, vs, hb⟩ := started hf hu hp
  have hpl : (path (normal (canon f))).length ≤ (normal (canon f)).length := by unfold path; simp
  rw [hp] at h1 hpl
  have hcs : ∀ g ∈ cs, Comp g := by
    intro g hg
    refine ⟨(hc g hg).1, (hc g hg).2, ?_⟩
    intro d hd
    refine h0 d (List.mem_of_mem_drop (i := (volume (normal (canon f))).length) ?_)
    show d ∈ path (normal (canon f))
    rw [hp]
    exact List.mem_flatMap.2 ⟨g, hg, List.mem_cons_of_mem _ hd⟩
  obtain ⟨st', n', vs', k1, k2, k3⟩ := loop_real S E hE hjl hr _ _ vs st (21 * 8192 + 1) h1 hb hl h0 hcs (by omega)
    (by have : (cs.flatMap (92 :: ·)).length ≤ 8180 := by omega
        omega)
  obtain ⟨w, hw⟩ := k3.2.2.2
  have hout : text 1 r = sw (join vs') ++ text 1 w := by
    rw [← hw, text_append, text_ascii k3.2.1]
  have hlen : (text 1 r).length ≤ 8180 := hroom
  have hfit : Fit (text 1 r) := by
    have hz := k2.whole.zero
    rw [hout] at hz hlen ⊢
    exact fit_rooted k3.1 _ hz (by omega)
  rw [h3, k1, ok_bind]
  exact give_ok S E hE.junk hE.wide k2 result size hs (by omega) hfit

/-- The loop up to a component on the way. -/
theorem loop_reach (S : Sys) (E : Env) (hE : E.Good) {n p q : List Nat} {cs ds : List (List Nat)} (hwk : Walk S p cs q) :
    ∀ (pre : List Nat) (st : St) (k : Nat), At n pre ((cs ++ ds).flatMap (92 :: ·)) p st → (∀ g ∈ cs ++ ds, Comp g) →
      ((cs ++ ds).flatMap (92 :: ·)).length < k →
      ∃ pre' st' k', loop S E k st = loop S E k' st' ∧ At n pre' (ds.flatMap (92 :: ·)) q st' ∧ st'.links = st.links ∧
        (ds.flatMap (92 :: ·)).length < k' := by
  induction hwk with
  | nil p => intro pre st k h _ hk; exact ⟨pre, st, k, rfl, h, rfl, hk⟩
  | missing hroom hf _hw ih =>
    rename_i p c r cs
    intro pre st k h hcs hk
    cases k with
    | zero => omega
    | succ k =>
      obtain ⟨st', a1, a2, _, a4⟩ := round S E hE.wide k h (hcs _ List.mem_cons_self) (by unfold Room at hroom; omega)
      rw [a4, hf, ok_bind]
      simp only [List.cons_append, List.flatMap_cons, List.length_append, List.length_cons] at hk
      obtain ⟨pre', st2, k', b1, b2, b3, b4⟩ := ih _ st' k a1 (fun g hg => hcs g (List.mem_cons_of_mem _ hg)) (by omega)
      exact ⟨pre', st2, k', b1, b2, by rw [b3, a2], b4⟩
  | entry hroom hf hnl hnm hl hroom2 _hw ih =>
    rename_i p c l r cs e
    intro pre st k h hcs hk
    cases k with
    | zero => omega
    | succ k =>
      obtain ⟨st', a1, a2, ⟨R, a3⟩, a4⟩ := round S E hE.wide k h (hcs _ List.mem_cons_self) (by unfold Room at hroom; omega)
      obtain ⟨st2, b1, b2, b3⟩ := round_exchange a1 a3 hl (by unfold Room at hroom2; omega) h.whole
      rw [a4, hf]
      unfold IsLink at hnl
      dsimp only [found]
      rw [if_neg hnl, hnm, b1, ok_bind]
      simp only [List.cons_append, List.flatMap_cons, List.length_append, List.length_cons] at hk
      obtain ⟨pre', st3, k', c1, c2, c3, c4⟩ := ih _ st2 k b2 (fun g hg => hcs g (List.mem_cons_of_mem _ hg)) (by omega)
      exact ⟨pre', st3, k', c1, c2, by rw [c3, b3, a2], c4⟩

/-- The call up to a component on the way. -/
theorem realpath_reach (S : Sys) (E : Env) (hE : E.Good) (result f rest q c : List Nat) (size : Nat)
    (cs ds : List (List Nat)) (hf : Fine f) (hu : uni <+: normal (canon f)) (hl : (normal (canon f)).length ≤ 8180)
    (hp : path (normal (canon f)) = (cs ++ c :: ds).flatMap (92 :: ·)) (hc : ∀ g ∈ cs ++ c :: ds, g ≠ [] ∧ 92 ∉ g)
    (hwk : Walk S (volume (normal (canon f))) cs q) (hroom : Room (q ++ 92 :: c)) :
    ∃ pre st k, At (normal (canon f)) pre (ds.flatMap (92 :: ·)) (q ++ 92 :: c) st ∧ st.links = 0 ∧
      (∃ R, st.f3 = text 1 (q ++ [92]) ++ R) ∧ (ds.flatMap (92 :: ·)).length < k ∧
      realpath S E result size (f ++ 0 :: rest) = (do
        let o ← (do
          let o ← (match S.find (text 2 (q ++ 92 :: c)) with
            | none => .ok (some st)
            | some e => found S E st (text 1 (q ++ [92])).length (text 2 (q ++ 92 :: c)) e : CRes (Option St))
          match o with
          | none => .ok none
          | some st => loop S E k st)
        match o with
        | none => .ok (false, result)
        | some st => give S E st result size) := by
  obtain ⟨st, h1, h2, h3⟩ := realpath_start S E hE result f rest size hf hu hl
  have h0 := fine_chars hf
  have hpl : (path (normal (canon f))).length ≤ (normal (canon f)).length := by unfold path; simp
  rw [hp] at h1 hpl
  have hcs : ∀ g ∈ cs ++ c :: ds, Comp g := by
    intro g hg
    refine ⟨(hc g hg).1, (hc g hg).2, ?_⟩
    intro d hd
    refine h0 d (List.mem_of_mem_drop (i := (volume (normal (canon f))).length) ?_)
    show d ∈ path (normal (canon f))
    rw [hp]
    exact List.mem_flatMap.2 ⟨g, hg, List.mem_cons_of_mem _ hd⟩
  obtain ⟨pre', st2, k', b1, b2, b3, b4⟩ := loop_reach S E hE hwk _ st (21 * 8192 + 1) h1 hcs (by omega)
  cases k' with
  | zero => omega
  | succ k =>
    obtain ⟨st', a1, a2, a3, a4⟩ := round S E hE.wide k b2 (hcs c (by simp)) (by unfold Room at hroom; omega)
    refine ⟨_, st', k, a1, by rw [a2, b3, h2], a3, ?_, ?_⟩
    · simp only [List.flatMap_cons, List.length_append, List.length_cons] at b4
      omega
    · rw [h3, b1, a4]
      rfl

/-- Negation of C112: if a path leads over a symbolic link with a relative target, `Realpath` returns false and gives nothing, whatever the
target. -/
theorem win_realpath_relative_link (S : Sys) (E : Env) (hE : E.Good) (result f rest q c : List Nat) (size : Nat)
    (cs ds : List (List Nat)) (hf : Fine f) (hu : uni <+: normal (canon f)) (hl : (normal (canon f)).length ≤ 8180)
    (hp : path (normal (canon f)) = (cs ++ c :: ds).flatMap (92 :: ·)) (hc : ∀ g ∈ cs ++ c :: ds, g ≠ [] ∧ 92 ∉ g)
    (hwk : Walk S (volume (normal (canon f))) cs q) (hroom : Room (q ++ 92 :: c)) (e : Found) (m : Reparse)
    (hfd : S.find (text 2 (q ++ 92 :: c)) = some e) (hil : IsLink e) (hrp : S.reparse (text 2 (q ++ 92 :: c)) = some m)
    (hst : Stored m) (hx : ∀ x ∈ m.path, x < 0x10000) (hfirst : PrintFirst m 0) (hlen : m.off + m.len ≤ 8182) (hne : m.len ≠ 0)
    (hshort : m.len ≤ 2730) :
    realpath S E result size (f ++ 0 :: rest) = .ok (false, result) := by
  obtain ⟨pre, st, k, h1, h2, _, _, h5⟩ := realpath_reach S E hE result f rest q c size cs ds hf hu hl hp hc hwk hroom
  have hcap := cap_le e.tag
  have hst' : Stored { m with tag := e.tag } := ⟨hst.off, hst.len, hst.inside, hst.room⟩
  have hfirst' : PrintFirst { m with tag := e.tag } 0 := hfirst
  obtain ⟨rest', hr⟩ := print_first hst' hfirst' (by dsimp only; omega) (by dsimp only; omega)
  rw [Nat.sub_zero, List.drop_length, List.nil_append] at hr
  obtain ⟨k1, T, lp, k2, k3⟩ := link_text (r := { m with tag := e.tag }) (result := E.f4) (size := 8192) (cps := [])
    ⟨(fun c h => nomatch h), (fun c h => nomatch h)⟩ (by dsimp only; omega) (by dsimp only; omega) (by rw [hE.f4]) hx hr
  have hlt := h1.room
  obtain ⟨ok, r, g1, g2, _⟩ := get_ok E.sgn E.reg [] (T ++ E.f4.drop (text 1 [] ++ 0 :: T).length) E.junk3
    ⟨(fun h => nomatch h), by decide, by decide, by decide⟩ hE.junk3
  have hok : ok = false := by
    cases ok with
    | false => rfl
    | true => exact absurd rfl (g2.1 rfl).1
  subst hok
  have hw : ∃ x, wr st.f2 st.sp 0 = .ok x := by
    rw [wr_ok _ (by
      rw [h1.sp, hlt]
      have := congrArg List.length h1.split
      rw [List.length_append] at this
      omega)]
    exact ⟨_, rfl⟩
  obtain ⟨x, hw⟩ := hw
  have hfol : follow E { st with links := st.links + 1 } { m with tag := e.tag } = .ok none := by
    unfold follow
    rw [k1, ok_bind, k3, ok_bind]
    dsimp only
    rw [hw, ok_bind]
    unfold Verif.WinAbs.absolute
    have e1 : text 1 [] ++ 0 :: T ++ E.f4.drop (text 1 [] ++ 0 :: T).length = [] ++ 0 :: (T ++ E.f4.drop (text 1 [] ++ 0 :: T).length) := rfl
    rw [e1, g1, ok_bind]
    rfl
  rw [h5, hfd]
  unfold IsLink at hil
  dsimp only [found]
  rw [if_pos hil, if_neg (by omega), hrp]
  dsimp only
  rw [hfol]
  rfl

/-- Negation of C112: if the name of the last entry fills `Filename3` to its last byte, the terminator is written behind it. -/
theorem win_realpath_overrun (S : Sys) (E : Env) (hE : E.Good) (result f rest q c l : List Nat) (size : Nat)
    (cs : List (List Nat)) (hf : Fine f) (hu : uni <+: normal (canon f)) (hl : (normal (canon f)).length ≤ 8180)
    (hp : path (normal (canon f)) = (cs ++ [c]).flatMap (92 :: ·)) (hc : ∀ g ∈ cs ++ [c], g ≠ [] ∧ 92 ∉ g)
    (hwk : Walk S (volume (normal (canon f))) cs q) (hroom : Room (q ++ 92 :: c)) (e : Found)
    (hfd : S.find (text 2 (q ++ 92 :: c)) = some e) (hnl : ¬ IsLink e) (hnm : e.name = text 2 l) (hw : Word l)
    (hfull : (text 1 (q ++ 92 :: l)).length = 8192) :
    realpath S E result size (f ++ 0 :: rest) = .error .oobWrite := by
  obtain ⟨pre, st, k, h1, h2, ⟨R, h3⟩, h4, h5⟩ := realpath_reach S E hE result f rest q c size cs [] hf hu hl hp hc hwk hroom
  have hq : Whole q := by
    have := h1.whole
    refine ⟨fun d hd => this.1 d (List.mem_append_left _ hd), ?_⟩
    have hpre := walk_prefix hwk
    obtain ⟨_, vs, hb⟩ := started hf hu hp
    obtain ⟨t, ht⟩ := hb.2.2.2.trans hpre
    rw [← ht]
    cases hb.1 <;> rfl
  obtain ⟨st2, b1, b2, b3⟩ := round_exchange h1 h3 hw (by omega) hq
  rw [h5, hfd]
  unfold IsLink at hnl
  dsimp only [found]
  rw [if_neg hnl, hnm, b1, ok_bind]
  cases k with
  | zero => omega
  | succ k =>
    have hsp := b2.split
    rw [List.flatMap_nil, List.append_nil] at hsp
    have hend : loop S E (k + 1) st2 = .ok (some st2) := by
      rw [loop, if_neg]
      rw [b2.sp, b2.len, ← hsp]
      omega
    show (do
        let o ← loop S E (k + 1) st2
        match o with
        | none => .ok (false, result)
        | some st => give S E st result size) = _
    rw [hend, ok_bind]
    dsimp only [give]
    have hwr : wr st2.f3 st2.x2 0 = .error .oobWrite := by
      unfold wr
      rw [if_neg]
      rw [b2.size, b2.x2, hfull]
      omega
    rw [hwr]
    rfl

/-! ## Cases -/

/-- ASCII text of the source as numbers. -/
def lit (s : String) : List Nat := s.toList.map (·.toNat)

/-- A system in which the names on the left lead to the entries on the right; all of them exist. -/
def table (l : List (List Nat × Found)) (m : List (List Nat × Reparse)) (x : List (List Nat)) : Sys :=
  ⟨fun w => (l.find? (fun a => a.1 = w)).map (·.2), fun w => (m.find? (fun a => a.1 = w)).map (·.2), fun w => if w ∈ x then some 128#32 else none⟩

/-- `c:/PROGRA~1/Sub` is `\\?\C:\Program Files\sub`, and exists. -/
example : let S := table [(lit "\\\\?\\C:\\PROGRA~1", ⟨16#32, .other, lit "Program Files"⟩),
      (lit "\\\\?\\C:\\Program Files\\Sub", ⟨32#32, .other, lit "sub"⟩)] [] [lit "\\\\?\\C:\\Program Files\\sub"]
    let f := lit "c:/PROGRA~1/Sub"
    let r := lit "\\\\?\\C:\\Program Files\\sub"
    Fine f ∧ uni <+: normal (canon f) ∧ Walk S (volume (normal (canon f))) (comps (path (normal (canon f)))) r ∧ Room r ∧
      trail (path (normal (canon f))) = [] ∧ (S.attrs (text 2 r)).isSome := by
  refine ⟨by decide, by decide, ?_, by unfold Room; decide, by decide, by decide⟩
  have hw : ∀ l ∈ [lit "Program Files", lit "sub"], Word l := by
    unfold Word Valid Combining
    decide
  rw [show volume (normal (canon (lit "c:/PROGRA~1/Sub"))) = lit "\\\\?\\C:" by decide,
    show comps (path (normal (canon (lit "c:/PROGRA~1/Sub")))) = [lit "PROGRA~1", lit "Sub"] by decide]
  refine .entry (l := lit "Program Files") (e := ⟨16#32, .other, lit "Program Files"⟩) (by unfold Room; decide) (by rfl) (by unfold IsLink; decide)
    (by decide) (hw _ (by simp)) (by unfold Room; decide) ?_
  refine .entry (l := lit "sub") (e := ⟨32#32, .other, lit "sub"⟩) (by unfold Room; decide) (by rfl) (by unfold IsLink; decide)
    (by decide) (hw _ (by simp)) (by unfold Room; decide) ?_
  exact .nil _

/-- The mount point `\\?\C:\m` leads to `\??\D:\x\`, so `C:\m\f` is `\\?\D:\x\f`. -/
example : let m : Reparse := ⟨.mount, 0, 18, lit "\\??\\D:\\x\\" ++ [0] ++ lit "D:\\x\\" ++ [0]⟩
    let S := table [(lit "\\\\?\\C:\\m", ⟨0x410#32, .mount, lit "m"⟩), (lit "\\\\?\\D:\\x", ⟨16#32, .other, lit "x"⟩)] [(lit "\\\\?\\C:\\m", m)]
      [lit "\\\\?\\D:\\x\\f"]
    let f := lit "C:\\m\\f"
    Fine f ∧ uni <+: normal (canon f) ∧ path (normal (canon f)) = [lit "m", lit "f"].flatMap (92 :: ·) ∧
      Real S 20 (volume (normal (canon f))) [lit "m", lit "f"] (lit "\\\\?\\D:\\x\\f") := by
  refine ⟨by decide, by decide, by decide, ?_⟩
  have hw : Word (lit "x") := by
    unfold Word Valid Combining
    decide
  rw [show volume (normal (canon (lit "C:\\m\\f"))) = lit "\\\\?\\C:" by decide]
  refine .mount (k := 19) (t := lit "\\??\\D:\\x\\") (e := ⟨0x410#32, .mount, lit "m"⟩)
    (m := ⟨.mount, 0, 18, lit "\\??\\D:\\x\\" ++ [0] ++ lit "D:\\x\\" ++ [0]⟩) (by unfold Room; decide) (by rfl) (by unfold IsLink; decide) (by rfl)
    ⟨⟨by decide, by decide, by decide, by decide⟩, by decide, ⟨rfl, lit "D:\\x\\" ++ [0], by decide⟩, by decide, by decide, by decide, by decide, by decide,
      by decide⟩ (by decide) ?_
  rw [show volume (normal (canon (lit "\\??\\D:\\x\\"))) = lit "\\\\?\\D:" by decide,
    show below (lit "\\??\\D:\\x\\") ++ [lit "f"] = [lit "x", lit "f"] by decide]
  refine .entry (l := lit "x") (e := ⟨16#32, .other, lit "x"⟩) (by unfold Room; decide) (by rfl) (by unfold IsLink; decide)
    (by decide) hw (by unfold Room; decide) ?_
  exact .missing (by unfold Room; decide) (by rfl) (.nil _ _)

/-- The symbolic link `\\?\C:\s` to `x\y`: `C:\s` has no real name. -/
example : let m : Reparse := ⟨.symlink, 6, 6, lit "x\\y" ++ lit "x\\y"⟩
    let S := table [(lit "\\\\?\\C:\\s", ⟨0x410#32, .symlink, lit "s"⟩)] [(lit "\\\\?\\C:\\s", m)] [lit "\\\\?\\C:\\x\\y"]
    let f := lit "C:\\s"
    Fine f ∧ uni <+: normal (canon f) ∧ path (normal (canon f)) = ([] ++ lit "s" :: []).flatMap (92 :: ·) ∧
      Walk S (volume (normal (canon f))) [] (lit "\\\\?\\C:") ∧ S.reparse (text 2 (lit "\\\\?\\C:" ++ 92 :: lit "s")) = some m ∧
      Stored m ∧ PrintFirst m 0 ∧ target m = lit "x\\y" :=
  ⟨by decide, by decide, by decide, .nil _, by rfl, ⟨by decide, by decide, by decide, by decide⟩, ⟨lit "x\\y", by decide, by decide, by decide⟩, by decide⟩

/-- Negation of C112 where `char` is signed: `C:\A~1` is the file `\\?\C:\é`, which exists; `Realpath` gives this name and returns false. -/
theorem win_realpath_signed (E : Env) (hE : E.Good) (hsg : E.sgn = true) (result rest : List Nat) (hs : 8192 ≤ result.length) :
    let S := table [(lit "\\\\?\\C:\\A~1", ⟨32#32, .other, [0xE9]⟩)] [] [lit "\\\\?\\C:\\" ++ [0xE9]]
    ∃ res, realpath S E result 8192 (lit "C:\\A~1" ++ 0 :: rest) = .ok (false, res) ∧ Holds res (text 1 (lit "\\\\?\\C:\\" ++ [0xE9])) ∧
      (S.attrs (text 2 (lit "\\\\?\\C:\\" ++ [0xE9]))).isSome := by
  intro S
  have hw : Word [0xE9] := by
    unfold Word Valid Combining
    decide
  have hwk : Walk S (volume (normal (canon (lit "C:\\A~1")))) (comps (path (normal (canon (lit "C:\\A~1"))))) (lit "\\\\?\\C:\\" ++ [0xE9]) := by
    rw [show volume (normal (canon (lit "C:\\A~1"))) = lit "\\\\?\\C:" by decide, show comps (path (normal (canon (lit "C:\\A~1")))) = [lit "A~1"] by decide]
    exact .entry (l := [0xE9]) (e := ⟨32#32, .other, [0xE9]⟩) (by unfold Room; decide) (by rfl) (by unfold IsLink; decide) (by decide) hw
      (by unfold Room; decide) (.nil _)
  have htr : trail (path (normal (canon (lit "C:\\A~1")))) = [] := by decide
  obtain ⟨b, res, h1, _, _, h4⟩ := win_realpath_partial S E hE result (lit "C:\\A~1") rest _ 8192 hs (by decide) (by decide) (by decide) hwk
    (by unfold Room; decide) (by rw [htr]; intro h; cases h)
  rw [htr, List.append_nil] at h4
  obtain ⟨h5, h6⟩ := h4 (by decide)
  have hb : b = false := by
    cases b with
    | false => rfl
    | true =>
      have h7 := (h6.1 rfl).1.2.2.2.2.1.1
      rw [hsg] at h7
      exact absurd (h7 0xC3 (by decide)) (by decide)
  rw [hb] at h1
  exact ⟨res, h1, h5, by rfl⟩

theorem long_canon (n : Nat) : canon (67 :: 58 :: 92 :: (List.replicate n 100 ++ [92, 97])) = 67 :: 58 :: 92 :: (List.replicate n 100 ++ [92, 97]) := by
  unfold canon
  simp

theorem long_normal (n : Nat) : normal (67 :: 58 :: 92 :: (List.replicate n 100 ++ [92, 97])) =
    uni ++ 67 :: 58 :: 92 :: (List.replicate n 100 ++ [92, 97]) := by
  unfold normal
  rw [if_neg (by unfold WinPath.Spec.Begins; simp [WinPath.Spec.unc, WinPath.Spec.fold]), if_neg (by simp [uni]),
    if_pos (by simp [WinPath.Spec.Drive])]
  unfold WinPath.Spec.upperDrive
  rw [if_pos (by simp [WinPath.Spec.Drive])]
  rfl

theorem long_body (n : Nat) : WinPath.Spec.body (67 :: 58 :: 92 :: (List.replicate n 100 ++ [92, 97])) = 92 :: (List.replicate n 100 ++ [92, 97]) := by
  unfold WinPath.Spec.body
  rw [if_neg (by unfold WinPath.Spec.Begins; simp [WinPath.Spec.unc, WinPath.Spec.fold]), if_neg (by simp [uni])]
  unfold WinPath.Spec.afterDrive
  rw [if_pos (by simp [WinPath.Spec.Drive])]
  rfl

theorem long_pieces (n : Nat) : WinPath.Spec.pieces (92 :: (List.replicate n 100 ++ [92, 97])) = [[], List.replicate n 100, [97]] := by
  have h : WinPath.Spec.pieces (List.replicate n 100 ++ [92, 97]) = [List.replicate n 100, [97]] := by
    rw [WinPath.pieces_append (List.replicate n 100) [92, 97] [] [[97]] (by simp [List.mem_replicate]) (by decide), List.append_nil]
  rw [WinPath.Spec.pieces, if_pos rfl, h]

theorem long_fine (n : Nat) (h1 : 6 < n) (h2 : n ≤ 8180) : Fine (67 :: 58 :: 92 :: (List.replicate n 100 ++ [92, 97])) := by
  refine ⟨by simp, by simp; omega, ?_, ?_, ?_, ?_, ?_, ?_⟩
  · intro c hc
    simp only [List.mem_cons, List.mem_append, List.mem_replicate, List.not_mem_nil, or_false] at hc
    omega
  · rw [long_canon]; simp [WinPath.Spec.vol]
  · rw [long_canon]; simp [uni]
  · rw [long_canon]
    unfold WinPath.Spec.Device WinPath.Spec.Begins
    simp [WinPath.Spec.fold]
  · rw [long_canon]
    unfold WinPath.Spec.Acceptable
    rw [long_body, long_pieces]
    refine ⟨?_, ?_⟩
    · intro c hc
      simp only [List.mem_cons, List.mem_append, List.mem_replicate, List.not_mem_nil, or_false] at hc
      unfold WinPath.Spec.Forbidden
      omega
    · intro g hg
      simp only [List.mem_cons, List.not_mem_nil, or_false] at hg
      rcases hg with rfl | rfl | rfl
      · decide
      · have e : WinPath.Spec.stem (List.replicate n 100) = List.replicate n 100 := by
          unfold WinPath.Spec.stem
          rw [List.takeWhile_replicate]
          simp
        rw [e]
        rintro (h | h | h | h | h | ⟨d, _, _, h | h⟩) <;> (have := WinPath.same_len h; simp at this; omega)
      · decide
  · rw [long_canon, long_body, long_pieces]
    intro g hg hr
    simp at hg
    subst hg
    exact absurd hr (by decide)

/-- A name that makes `Realpath` write behind its buffer: `C:\`, a directory with a long name and `a`, the short name of an entry which fills
the buffer. -/
theorem overrun_case (n : Nat) (h1 : 6 < n) (h2 : n ≤ 8170) (E : Env) (hE : E.Good) (result rest : List Nat) (size : Nat) :
    realpath ⟨fun w => if w.getLast? = some 97 then some ⟨32#32, .other, List.replicate (8184 - n) 98⟩ else none, fun _ => none, fun _ => none⟩
      E result size (67 :: 58 :: 92 :: (List.replicate n 100 ++ [92, 97]) ++ 0 :: rest) = .error .oobWrite := by
  have hv : volume (normal (canon (67 :: 58 :: 92 :: (List.replicate n 100 ++ [92, 97])))) = lit "\\\\?\\C:" := by
    rw [long_canon, long_normal]
    unfold volume Verif.WinAbs.Spec.prefixLen
    rw [if_neg (by unfold WinPath.Spec.Begins; simp [WinPath.Spec.unc, WinPath.Spec.fold, uni]), if_pos (List.prefix_append _ _)]
    rfl
  have hp : path (normal (canon (67 :: 58 :: 92 :: (List.replicate n 100 ++ [92, 97])))) = 92 :: (List.replicate n 100 ++ [92, 97]) := by
    unfold path
    rw [hv, long_canon, long_normal]
    rfl
  have hla : ∀ c ∈ lit "\\\\?\\C:", c < 0x80 := by decide
  have ha : ∀ (k : Nat) (x : List Nat), (∀ c ∈ x, c < 0x80) → ∀ c ∈ lit "\\\\?\\C:" ++ 92 :: List.replicate k 100 ++ x, c < 0x80 := by
    intro k x hx c hc
    rcases List.mem_append.1 hc with hc | hc
    · rcases List.mem_append.1 hc with hc | hc
      · exact hla c hc
      · rcases List.mem_cons.1 hc with rfl | hc
        · decide
        · rw [List.mem_replicate] at hc; omega
    · exact hx c hc
  have ha0 := ha n [] (by simp)
  rw [List.append_nil] at ha0
  have hlen : (lit "\\\\?\\C:").length = 6 := by decide
  refine win_realpath_overrun _ E hE result _ rest (lit "\\\\?\\C:" ++ 92 :: List.replicate n 100) [97] (List.replicate (8184 - n) 98) size
    [List.replicate n 100] (long_fine n h1 (by omega)) ?_ ?_ ?_ ?_ ?_ ?_ ⟨32#32, .other, List.replicate (8184 - n) 98⟩ ?_ ?_ ?_ ?_ ?_
  · rw [long_canon, long_normal]; exact List.prefix_append _ _
  · rw [long_canon, long_normal]
    simp only [List.length_append, List.length_cons, List.length_nil, List.length_replicate, uni]
    omega
  · rw [hp]; simp
  · intro g hg
    simp only [List.mem_append, List.mem_cons, List.not_mem_nil, or_false] at hg
    rcases hg with rfl | rfl
    · refine ⟨?_, by simp [List.mem_replicate]⟩
      intro e
      have := congrArg List.length e
      rw [List.length_replicate, List.length_nil] at this
      omega
    · simp
  · rw [hv]
    refine .missing ?_ ?_ (.nil _)
    · unfold Room
      rw [text_ascii ha0]
      simp only [List.length_append, List.length_cons, List.length_replicate, hlen]
      omega
    · rw [Verif.WinDir.text2_ascii ha0]
      dsimp only
      rw [if_neg]
      rw [List.getLast?_append_of_ne_nil _ (by simp), List.getLast?_cons, List.getLast?_replicate, if_neg (by omega)]
      simp
  · unfold Room
    rw [text_ascii (ha n _ (by decide))]
    simp only [List.length_append, List.length_cons, List.length_nil, List.length_replicate, hlen]
    omega
  · rw [Verif.WinDir.text2_ascii (ha n _ (by decide))]
    dsimp only
    rw [if_pos (by rw [List.getLast?_append_of_ne_nil _ (by simp)]; rfl)]
  · unfold IsLink
    simp
  · dsimp only
    rw [Verif.WinDir.text2_ascii]
    intro c hc
    rw [List.mem_replicate] at hc
    omega
  · refine ⟨?_, ?_⟩
    · intro c hc
      rw [List.mem_replicate] at hc
      rw [hc.2]
      exact ⟨Verif.WinOps.ascii_valid (by decide), by decide⟩
    · intro c hc
      rw [List.head?_replicate, if_neg (by omega)] at hc
      cases hc
      decide
  · rw [text_ascii (ha n _ ?_)]
    · simp only [List.length_append, List.length_cons, List.length_replicate, hlen]
      omega
    · intro c hc
      rcases List.mem_cons.1 hc with rfl | hc
      · decide
      · rw [List.mem_replicate] at hc
        omega

end Verif.WinReal
