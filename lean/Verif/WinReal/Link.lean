import Verif.WinReal.Props
import Verif.WinLink.PropsRead

/-!
# Rounds of the loop of `Realpath` that meet a link
-/

namespace Verif.WinReal
open Spec
open Verif.Utf8.Spec
open Verif.WinOps (text_append text_ascii)
open Verif.WinPath.Spec (pieces upperFirst upperDrive uni vol unc canon normal Holds)
open Verif.WinAbs (Fit Fine Accepted Usable absolute absolute_does normal_forms split_volume Rooted Split sw sw_append sw_sw sw_len Done Own Seen
  done_false rooted_plain walk_nonempty resolve_own last_dot rooted_volume sw_join comps_sw_join walk_sw)
open Verif.WinAbs.Spec (comps volume path)
open Verif.WinLink (fine_ascii Reparse link_text target_first cap_le linkUnits)
open Verif.WinLink.Spec (Stored TargetFirst PrintFirst target)
open Verif.Path (join cstr cstr_ok join_append Plain full)
open Verif.Path.Spec (walk dot dotdot)

theorem normal_short (s : List Nat) : (normal s).length ≤ s.length + 8 := by
  have hu : ∀ w : List Nat, (upperDrive w).length = w.length := by
    intro w
    unfold upperDrive
    split
    · cases w <;> simp [upperFirst]
    · rfl
  unfold normal
  split
  · simp [hu]; omega
  · split
    · split
      · simp [hu, uni]; omega
      · split
        · omega
        · simp [unc]
    · split
      · simp [hu, uni]
      · split
        · simp [unc]
        · omega

theorem pieces_mem : ∀ (s g : List Nat), g ∈ pieces s → ∀ c ∈ g, c ∈ s
  | [], g, h, c, hc => by
    simp [pieces] at h
    subst h
    cases hc
  | d :: s, g, h, c, hc => by
    rw [pieces] at h
    have ih := pieces_mem s
    split at h
    · rcases List.mem_cons.1 h with rfl | h
      · cases hc
      · exact List.mem_cons_of_mem _ (ih g h c hc)
    · cases hp : pieces s with
      | nil =>
        rw [hp] at h
        simp at h
        subst h
        simp at hc
        simp [hc]
      | cons x xs =>
        rw [hp] at h
        rcases List.mem_cons.1 h with rfl | h
        · rcases List.mem_cons.1 hc with rfl | hc
          · exact List.mem_cons_self
          · exact List.mem_cons_of_mem _ (ih x (by rw [hp]; exact List.mem_cons_self) c hc)
        · exact List.mem_cons_of_mem _ (ih g (by rw [hp]; exact List.mem_cons_of_mem _ h) c hc)

/-- The characters of a target. -/
theorem below_mem {t : List Nat} {g : List Nat} (hg : g ∈ below t) : ∀ c ∈ g, c ∈ normal (canon t) := by
  intro c hc
  rcases Verif.Path.walk_mem _ _ _ hg with h | h
  · cases h
  · exact List.mem_of_mem_drop (pieces_mem _ g (List.mem_of_mem_filter h) c hc)

theorem fine_chars {t : List Nat} (h : Fine t) : ∀ c ∈ normal (canon t), 0 < c ∧ c < 0x80 := by
  intro c hc
  have hz := Verif.WinAbs.normal_zero (Verif.WinAbs.canon_zero h.fit.1)
  rw [h.fit.normal] at hz
  exact ⟨Nat.pos_of_ne_zero (fun e => hz (e ▸ hc)), fine_ascii h c hc⟩

theorem volume_prefix (n : List Nat) : volume n <+: n := by
  unfold volume
  split
  · exact List.nil_prefix
  · exact ⟨_, by rw [List.append_assoc, List.takeWhile_append_dropWhile, List.take_append_drop]⟩

/-- `GetAbsoluteFilename` for a full name. -/
theorem absolute_own {sgn : Bool} {reg : List Nat → Option Nat} {junk2 junk3 result f rest br d : List Nat} {size : Nat}
    (h2 : junk2.length = 8192) (h3 : junk3.length = 8192) (hl : junk2[8191]? ≠ some 92) (hs : size ≤ result.length)
    (hf : Fine f) (hfl : (normal (canon f)).length ≤ 8188) (hfu : uni <+: normal (canon f)) (hd : Usable d)
    (p2 : ¬ [92, 46] <:+ volume (normal (canon f))) (p3 : ¬ [92, 46, 46] <:+ volume (normal (canon f)))
    (hroom : (volume (normal (canon f)) ++ (below f).flatMap (92 :: ·)).length + 2 ≤ size) :
    ∃ r us S, absolute sgn reg junk2 junk3 result size (some (d ++ 0 :: br)) none (f ++ 0 :: rest) false = .ok (true, r) ∧
      r.length = result.length ∧ Rooted us ∧ (∀ g ∈ S, g ≠ [] ∧ 47 ∉ g) ∧ volume (normal (canon f)) = sw (join us) ∧
      below f = S.map sw ∧ Holds r (sw (join (us ++ S))) := by
  obtain ⟨ok, r, g1, g2, g3⟩ := absolute_does sgn reg junk2 junk3 result f rest br [] size (some d) none false h2 h3 hl hs
    hf.fit.usable (fun d' e => by cases e; exact hd)
  rw [hf.fit.normal] at g3
  have hsplit : ∃ vs rs, Split (normal (canon f)) vs rs := by
    rcases normal_forms (canon f) with h | ⟨h, h', _⟩
    · rwa [hf.fit.normal] at h
    · rw [hf.fit.normal] at h
      rw [h] at hfu
      exact absurd hfu h'
  rcases g3 with ⟨_, g3⟩ | ⟨_, ⟨vs, rs, us, qs, k1, k2, k4, k5⟩ | ⟨d', _, _, vs, ps, _, k3, k4, _⟩⟩
  · exact absurd ⟨hf.accepted sgn hfl, hfl, .inl hsplit⟩ g3
  · rw [hf.fit.normal] at k1 k2
    obtain ⟨_, v2, v3⟩ := split_volume k1
    rw [v2] at p2 p3
    obtain ⟨rfl, hw⟩ := k4 (fun e => p2 (last_dot e))
    have hne := walk_nonempty k2.2.1
    have hb : below f = (walk [] (full qs)).map sw := by
      unfold below
      rw [v3, comps_sw_join k1.2.1, hw, ← walk_sw]
      rfl
    have e : sw (join (us ++ walk [] (full qs))) = volume (normal (canon f)) ++ (below f).flatMap (92 :: ·) := by
      rw [join_append, sw_append, v2, hb, ← sw_join]
    obtain ⟨d1, d2⟩ := done_false k2.1 hne (by rw [e]; exact hroom) k5
    have hok : ok = true := by
      apply d1.2
      have hpl : ∀ g ∈ (us ++ walk [] (full qs)).dropLast, Plain g := by
        intro g hg
        rcases List.mem_append.1 (List.dropLast_subset _ hg) with hm | hm
        · exact rooted_plain k2.1 p2 p3 _ hm
        · exact Verif.Path.walk_plain_mem _ [] (fun g h => nomatch h) g hm
      exact ⟨fun h => (hpl _ h).1 rfl, fun h => (hpl _ h).2 rfl⟩
    subst hok
    exact ⟨r, us, _, g1, g2, k2.1, hne, v2, hb, d2 rfl⟩
  · rw [hf.fit.normal] at k3
    rw [k3] at hfu
    exact absurd hfu k4

/-- Following a link: the new name is the target with what is left of the old name behind it. -/
theorem follow_ok {E : Env} (hE : E.Good) (hjl : E.junk2[8191]? ≠ some 92) {n pre rem p t : List Nat} {vs : List (List Nat)} {st : St} {m : Reparse}
    (h : At n pre rem p st) {rs : List (List Nat)} (hrs : rem = sw (join rs)) (hv : Rooted vs) (hvp : sw (join vs) <+: pre) (hn : n.length ≤ 8180)
    (h0 : ∀ c ∈ n, 0 < c ∧ c < 0x80) (hm : LeadsTo m t)
    (hroom : (volume (normal (canon t)) ++ ((below t).flatMap (92 :: ·) ++ rem)).length ≤ 8180) :
    ∃ st' us S, follow E st m = .ok (some st') ∧ st'.links = st.links ∧ Rooted us ∧ volume (normal (canon t)) = sw (join us) ∧
      (∀ g ∈ S, g ≠ [] ∧ 47 ∉ g) ∧ below t = S.map sw ∧
      At (sw (join (us ++ S)) ++ rem) (sw (join us)) (sw (join S) ++ rem) (sw (join us)) st' := by
  obtain ⟨hst, hx, hfirst, hlen, hne, ht, hf, hu, hd1, hd2⟩ := hm
  have hrem : rem = [] ∨ rem.head? = some 92 := by
    rw [hrs]
    rcases Verif.Path.join_head rs with h | ⟨t, h⟩
    · left; rw [h]; rfl
    · right; rw [h]; rfl
  have hc := cap_le m.tag
  have ho := hfirst.1
  obtain ⟨rest', e⟩ := target_first hst hfirst (by omega) hne
  have hta : ∀ c ∈ t, c < 0x80 := fun c hc => (hf.2.2.1 c hc).2
  rw [ht, ← Verif.WinDir.text2_ascii hta] at e
  have hgt : GoodText t := by
    refine ⟨fun c hc => Verif.WinOps.ascii_valid (hta c hc), ?_⟩
    intro c hc
    have := hta c (List.mem_of_mem_head? hc)
    unfold Combining
    omega
  obtain ⟨k1, T, lp, k2, k3⟩ := link_text (result := E.f4) (size := 8192) hgt (by omega) (by omega)
    (by rw [hE.f4]) hx e
  rw [text_ascii hta] at k2 k3
  obtain ⟨tl, hf2⟩ := h.name
  have hspl := h.split
  have hz : 0 ∉ n := fun hm => absurd (h0 0 hm).1 (by omega)
  have hpz : 0 ∉ pre := fun hm => hz (by rw [hspl]; exact List.mem_append_left _ hm)
  have hf2l := h.room
  have hbase : wr st.f2 st.sp 0 = .ok (pre ++ 0 :: ((rem ++ 0 :: tl).drop 1)) := by
    rw [hf2, hspl, h.sp]
    cases rem with
    | nil =>
      rw [List.append_nil, wr_append' _ tl 0 0 _ rfl]
      rfl
    | cons x rem =>
      rw [List.append_assoc, List.cons_append, wr_append' _ _ x 0 _ rfl]
      rfl
  have hdu : Usable pre := by
    obtain ⟨w, hw⟩ := hvp
    have hl := congrArg List.length hspl
    rw [List.length_append] at hl
    rw [← hw] at hpz hl ⊢
    exact (fit_rooted hv w hpz (by omega)).usable
  have hnl : (normal (canon t)).length ≤ 8188 := by
    have h1 := normal_short (canon t)
    rw [Verif.WinPath.canon_len] at h1
    have h2 : t.length ≤ m.len / 2 := by
      rw [← ht]
      unfold target
      rw [List.length_take]
      omega
    omega
  obtain ⟨r, us, S, a1, a2, a3, a4, a5, a6, ⟨R, a7⟩⟩ := absolute_own (sgn := E.sgn) (reg := E.reg) (result := st.f3) (size := 8192) (d := pre) (f := t)
    (rest := T ++ E.f4.drop (t ++ 0 :: T).length) (br := (rem ++ 0 :: tl).drop 1) hE.junk2 hE.junk3 hjl (by rw [h.size]) hf hnl hu hdu hd1 hd2
    (by simp only [List.length_append] at hroom ⊢; omega)
  have e1 : sw (join (us ++ S)) = volume (normal (canon t)) ++ (below t).flatMap (92 :: ·) := by
    rw [join_append, sw_append, a5, a6, ← sw_join]
  have hx0 : ∀ c ∈ sw (join (us ++ S)), 0 < c ∧ c < 0x80 := by
    intro c hc
    rw [e1] at hc
    rcases List.mem_append.1 hc with hc | hc
    · exact fine_chars hf c ((volume_prefix _).subset hc)
    · obtain ⟨g, hg, hc⟩ := List.mem_flatMap.1 hc
      rcases List.mem_cons.1 hc with rfl | hc
      · decide
      · exact fine_chars hf c (below_mem hg c hc)
  have hlen' : (sw (join (us ++ S))).length + rem.length ≤ 8180 := by
    rw [e1]; simp only [List.length_append] at hroom ⊢; omega
  have hback : (if st.sp < st.len then wr (pre ++ 0 :: (rem ++ 0 :: tl).drop 1) st.sp 92 else .ok (pre ++ 0 :: (rem ++ 0 :: tl).drop 1)) =
      .ok (pre ++ (rem ++ 0 :: tl)) := by
    rw [h.sp, h.len, hspl, List.length_append]
    rcases hrem with rfl | hrem
    · rw [if_neg (by simp)]; rfl
    · cases rem with
      | nil => cases hrem
      | cons x rem =>
        obtain rfl : x = 92 := Option.some.inj hrem
        rw [if_pos (by simp), wr_append' _ _ 0 92 _ rfl]
        rfl
  have hsub : st.len - st.sp = rem.length := by
    rw [h.sp, h.len, hspl, List.length_append]; omega
  have hsub2 : (sw (join (us ++ S))).length + st.len - st.sp = (sw (join (us ++ S))).length + rem.length := by
    have := h.sp; have := h.len; have := congrArg List.length hspl
    rw [List.length_append] at this
    omega
  have hxz : 0 ∉ sw (join (us ++ S)) := fun hm => absurd (hx0 0 hm).1 (by omega)
  have hrz : 0 ∉ sw (join (us ++ S)) ++ rem := by
    intro hm
    rcases List.mem_append.1 hm with hm | hm
    · exact hxz hm
    · exact hz (by rw [hspl]; exact List.mem_append_right _ hm)
  rw [h.size] at a2
  have hfl : (pre ++ (rem ++ 0 :: tl)).length = 8192 := by
    rw [← hf2l, hf2, hspl, List.append_assoc]
  obtain ⟨st', q1, q2, q3⟩ := start_ok (sw (join (us ++ S)) ++ rem)
    ((pre ++ (rem ++ 0 :: tl)).drop ((sw (join (us ++ S)) ++ rem).length + 1)) (sw (join (us ++ S)) ++ (rem ++ 0 :: R.drop rem.length)) st.links hrz
    (by
      have := Verif.WinAbs.split_uni (s := sw (join us)) (vs := us) (rs := []) ⟨a3, (fun g hg => nomatch hg), by rw [sw_sw, List.append_nil]⟩
      rw [join_append, sw_append, List.append_assoc]
      exact this.trans (List.prefix_append _ _))
    (by rw [a7] at a2; simp only [List.length_append, List.length_cons, List.length_drop] at a2 ⊢; omega)
    (by simp only [List.length_append, List.length_cons, List.length_drop] at hfl hlen' ⊢; omega)
    (by
      intro c hc
      rcases List.mem_append.1 hc with hc | hc
      · exact (hx0 c hc).2
      · exact (h0 c (by rw [hspl]; exact List.mem_append_right _ hc)).2)
  refine ⟨st', us, S, ?_, q3, a3, a5, a4, a6, ?_⟩
  · unfold follow
    rw [k1, ok_bind, k3, ok_bind]
    dsimp only
    rw [hbase, ok_bind, List.append_assoc, List.cons_append, a1, ok_bind]
    dsimp only
    rw [if_neg (by decide), hback, ok_bind, a7, cstr_ok _ R hxz, ok_bind, hsub2, if_neg (by omega), hsub, h.sp, List.drop_left]
    have m1 : memcpyTo (sw (join (us ++ S)) ++ 0 :: R) (sw (join (us ++ S))).length (rem ++ 0 :: tl) (rem.length + 1) =
        .ok (sw (join (us ++ S)) ++ (rem ++ 0 :: R.drop rem.length)) := by
      unfold memcpyTo
      rw [if_pos (by simp), if_pos (by rw [a7] at a2; rw [a2]; omega), List.take_left, List.take_length_add_append]
      simp [List.drop_append]
    rw [m1, ok_bind, ← List.append_assoc, cstr_ok _ _ hrz, ok_bind]
    have m2 : memcpyTo (pre ++ (rem ++ 0 :: tl)) 0 (sw (join (us ++ S)) ++ rem ++ [0]) ((sw (join (us ++ S)) ++ rem).length + 1) =
        .ok (sw (join (us ++ S)) ++ rem ++ 0 :: (pre ++ (rem ++ 0 :: tl)).drop ((sw (join (us ++ S)) ++ rem).length + 1)) := by
      unfold memcpyTo
      rw [if_pos (by simp only [List.length_append, List.length_cons, List.length_nil, Nat.le_refl]), if_pos (by rw [hfl, List.length_append]; omega),
        List.take_of_length_le (l := sw (join (us ++ S)) ++ rem ++ [0]) (by rw [List.length_append]; exact Nat.le_refl _)]
      simp
    rw [m2, ok_bind, ← q1]
    simp
  · have hs : sw (join (us ++ S)) ++ rem = sw (join (us ++ (S ++ rs))) := by
      rw [hrs, ← List.append_assoc, join_append (us ++ S), sw_append]
    have hvn : volume (sw (join (us ++ S)) ++ rem) = sw (join us) := by
      rw [hs]; exact (rooted_volume a3).2
    have hpn : path (sw (join (us ++ S)) ++ rem) = sw (join S) ++ rem := by
      unfold path
      rw [hvn, join_append, sw_append, List.append_assoc, List.drop_left]
    rw [hvn, hpn] at q2
    exact q2

/-- A component: ASCII without backslashes. -/
def Comp (c : List Nat) : Prop := c ≠ [] ∧ 92 ∉ c ∧ ∀ d ∈ c, 0 < d ∧ d < 0x80

theorem comps_tail {cs : List (List Nat)} : cs.flatMap (92 :: ·) = [] ∨ (cs.flatMap (92 :: ·)).head? = some 92 := by
  cases cs with
  | nil => exact .inl rfl
  | cons c cs => right; simp

/-- The question asked about the next component. -/
theorem round (S : Sys) (E : Env) (hw : E.wide.length = 8192) {n pre p c : List Nat} {cs : List (List Nat)} {st : St} (k : Nat)
    (h : At n pre ((c :: cs).flatMap (92 :: ·)) p st) (hc : Comp c) (hr : (text 1 (p ++ 92 :: c)).length ≤ 8191) :
    ∃ st', At n (pre ++ 92 :: c) (cs.flatMap (92 :: ·)) (p ++ 92 :: c) st' ∧ st'.links = st.links ∧
      (∃ R, st'.f3 = text 1 (p ++ [92]) ++ R) ∧
      loop S E (k + 1) st = (do
        let o ← (match S.find (text 2 (p ++ 92 :: c)) with
          | none => .ok (some st')
          | some e => found S E st' (text 1 (p ++ [92])).length (text 2 (p ++ 92 :: c)) e : CRes (Option St))
        match o with
        | none => .ok none
        | some st => loop S E k st) := by
  have h' : At n pre (List.replicate 1 92 ++ (c ++ cs.flatMap (92 :: ·))) p st := by simpa using h
  obtain ⟨hc1, hc2, hc3⟩ := hc
  have hh : (c ++ cs.flatMap (92 :: ·)).head? ≠ some 92 := by
    cases c with
    | nil => exact absurd rfl hc1
    | cons x c =>
      intro e
      have : x = 92 := Option.some.inj e
      exact hc2 (by simp [this])
  obtain ⟨f3, R, e1, e2, e3⟩ := step_ask S E hw h' hc2 hh comps_tail hc3 hr
  have hn := h'.next (ascii_word hc3) e1 e2
  have hlt : st.sp < st.len := by
    have h1 := h.sp; have h2 := h.len; have h3 := h.split
    rw [h1, h2, h3, List.length_append, List.flatMap_cons, List.length_append, List.length_cons]
    omega
  have hpp : pre ++ List.replicate 1 92 ++ c = pre ++ 92 :: c := by simp
  rw [hpp] at hn
  refine ⟨_, hn, rfl, ⟨text 1 c ++ 0 :: R, ?_⟩, ?_⟩
  · show f3 = _
    rw [e1, show p ++ 92 :: c = (p ++ [92]) ++ c by simp, text_append]
    simp
  · rw [loop, if_pos hlt, e3]
    rfl

/-- Exchanging the component for the name of the entry. -/
theorem round_exchange {n pre rem p c l R : List Nat} {st : St} (h : At n pre rem (p ++ 92 :: c) st) (hf : st.f3 = text 1 (p ++ [92]) ++ R)
    (hl : Word l) (hr : (text 1 (p ++ 92 :: l)).length ≤ 8192) (hp : Whole p) :
    ∃ st', exchange st (text 1 (p ++ [92])).length (text 2 l) = .ok (some st') ∧ At n pre rem (p ++ 92 :: l) st' ∧ st'.links = st.links := by
  have hpl : p ++ [92] ++ l = p ++ 92 :: l := by simp
  obtain ⟨R', q1, q2⟩ := exchange_ok (p := p ++ [92]) (l := l) st _ hf h.size ⟨fun d hd => (hl.1 d hd).1, hl.2⟩ (by rw [hpl]; exact hr)
  rw [hpl] at q1 q2
  exact ⟨_, q1, ⟨h.name, h.split, h.sp, h.len, hp.more hl.1, ⟨_, rfl⟩, q2, rfl, h.room⟩, rfl⟩

/-- The beginning of a name and of the path so far is a volume. -/
def Based (vs : List (List Nat)) (pre p : List Nat) : Prop :=
  Rooted vs ∧ (∀ c ∈ sw (join vs), c < 0x80) ∧ sw (join vs) <+: pre ∧ sw (join vs) <+: p

theorem Based.more {vs : List (List Nat)} {pre p : List Nat} (h : Based vs pre p) (a b : List Nat) : Based vs (pre ++ a) (p ++ b) :=
  ⟨h.1, h.2.1, h.2.2.1.trans (List.prefix_append _ _), h.2.2.2.trans (List.prefix_append _ _)⟩

theorem sw_flat (cs : List (List Nat)) : cs.flatMap (92 :: ·) = sw (join (cs.map sw)) := by
  rw [sw_join, List.map_map]
  have : (sw ∘ sw) = (id : List Nat → List Nat) := by funext s; simp
  rw [this, List.map_id]

theorem below_comp {t : List Nat} {S : List (List Nat)} (hf : Fine t) (hS : ∀ g ∈ S, g ≠ [] ∧ 47 ∉ g) (h : below t = S.map sw) :
    ∀ g ∈ below t, Comp g := by
  intro g hg
  refine ⟨?_, ?_, fun d hd => fine_chars hf d (below_mem hg d hd)⟩
  · rw [h] at hg
    obtain ⟨x, hx, rfl⟩ := List.mem_map.1 hg
    intro e
    exact (hS x hx).1 (by rw [← sw_sw x, e]; rfl)
  · rw [h] at hg
    obtain ⟨x, hx, rfl⟩ := List.mem_map.1 hg
    exact Verif.WinAbs.sw_noback (hS x hx).2

theorem fuel_entry {b q c r k : Nat} (h : (b + 1) * q + (c + 1 + r) < k + 1) : b * q + r < k := by
  have h1 : (b + 1) * q = b * q + q := Nat.succ_mul b q
  omega

theorem fuel_link {b q r k v w z : Nat} (h : (b + 1) * q + r < k + 1) (hz : v + z ≤ w) (hw : w < q) : b * q + z < k := by
  have h1 : (b + 1) * q = b * q + q := Nat.succ_mul b q
  omega

/-- The loop. -/
theorem loop_real (S : Sys) (E : Env) (hE : E.Good) (hjl : E.junk2[8191]? ≠ some 92) {b : Nat} {p r : List Nat} {cs : List (List Nat)} (hr : Real S b p cs r) :
    ∀ (n pre : List Nat) (vs : List (List Nat)) (st : St) (k : Nat), At n pre (cs.flatMap (92 :: ·)) p st → Based vs pre p → n.length ≤ 8180 →
      (∀ c ∈ n, 0 < c ∧ c < 0x80) → (∀ g ∈ cs, Comp g) → st.links + b ≤ 20 → b * 8192 + (cs.flatMap (92 :: ·)).length < k →
      ∃ st' n' vs', loop S E k st = .ok (some st') ∧ At n' n' [] r st' ∧ Based vs' n' r := by
  induction hr with
  | nil b p =>
    intro n pre vs st k h hb hn h0 hcs hl hk
    cases k with
    | zero => omega
    | succ k =>
      have h' : At n pre [] p st := h
      have h3 := h'.split
      rw [List.append_nil] at h3
      subst h3
      refine ⟨st, n, vs, ?_, h', hb⟩
      rw [loop, if_neg]
      rw [h'.sp, h'.len]; omega
  | missing hroom hf _hreal ih =>
    rename_i b p c r cs
    intro n pre vs st k h hb hn h0 hcs hl hk
    cases k with
    | zero => omega
    | succ k =>
      obtain ⟨st', a1, a2, _, a4⟩ := round S E hE.wide k h (hcs _ List.mem_cons_self) (by unfold Room at hroom; omega)
      rw [a4, hf, ok_bind]
      refine ih n _ vs st' k a1 (hb.more _ _) hn h0 (fun g hg => hcs g (List.mem_cons_of_mem _ hg)) (by omega) ?_
      simp only [List.flatMap_cons, List.length_append, List.length_cons] at hk
      omega
  | entry hroom hf hnl hnm hl hroom2 _hreal ih =>
    rename_i b p c l r cs e
    intro n pre vs st k h hb hn h0 hcs hlk hk
    cases k with
    | zero => omega
    | succ k =>
      obtain ⟨st', a1, a2, ⟨R, a3⟩, a4⟩ := round S E hE.wide k h (hcs _ List.mem_cons_self) (by unfold Room at hroom; omega)
      obtain ⟨st2, b1, b2, b3⟩ := round_exchange a1 a3 hl (by unfold Room at hroom2; omega) h.whole
      rw [a4, hf]
      unfold IsLink at hnl
      dsimp only [found]
      rw [if_neg hnl, hnm, b1, ok_bind]
      refine ih n _ vs st2 k b2 (hb.more _ _) hn h0 (fun g hg => hcs g (List.mem_cons_of_mem _ hg)) (by omega) ?_
      simp only [List.flatMap_cons, List.length_append, List.length_cons] at hk
      omega
  | locked hroom hf hil hrp hnm hl hroom2 _hreal ih =>
    rename_i b p c l r cs e
    intro n pre vs st k h hb hn h0 hcs hlk hk
    cases k with
    | zero => omega
    | succ k =>
      obtain ⟨st', a1, a2, ⟨R, a3⟩, a4⟩ := round S E hE.wide k h (hcs _ List.mem_cons_self) (by unfold Room at hroom; omega)
      have a1' : At n (pre ++ 92 :: c) (cs.flatMap (92 :: ·)) (p ++ 92 :: c) { st' with links := st'.links + 1 } :=
        ⟨a1.name, a1.split, a1.sp, a1.len, a1.whole, a1.buf, a1.size, a1.x2, a1.room⟩
      obtain ⟨st2, b1, b2, b3⟩ := round_exchange (l := l) a1' a3 hl (by unfold Room at hroom2; omega) h.whole
      rw [a4, hf]
      unfold IsLink at hil
      dsimp only [found]
      rw [if_pos hil, if_neg (by omega), hrp]
      dsimp only
      rw [hnm, b1, ok_bind]
      refine ih n _ vs st2 k b2 (hb.more _ _) hn h0 (fun g hg => hcs g (List.mem_cons_of_mem _ hg)) (by dsimp only at b3; omega) ?_
      simp only [List.flatMap_cons, List.length_append, List.length_cons] at hk
      exact fuel_entry hk
  | mount hroom hf hil hrp hm hlen _hreal ih =>
    rename_i b p c t r cs e m
    intro n pre vs st k h hb hn h0 hcs hlk hk
    cases k with
    | zero => omega
    | succ k =>
      obtain ⟨st', a1, a2, ⟨R, a3⟩, a4⟩ := round S E hE.wide k h (hcs _ List.mem_cons_self) (by unfold Room at hroom; omega)
      have a1' : At n (pre ++ 92 :: c) (cs.flatMap (92 :: ·)) (p ++ 92 :: c) { st' with links := st'.links + 1 } :=
        ⟨a1.name, a1.split, a1.sp, a1.len, a1.whole, a1.buf, a1.size, a1.x2, a1.room⟩
      have hm' : LeadsTo { m with tag := e.tag } t :=
        ⟨⟨hm.stored.off, hm.stored.len, hm.stored.inside, hm.stored.room⟩, hm.units, hm.first, hm.short, hm.some, hm.target, hm.fine, hm.full, hm.host⟩
      rw [List.flatMap_append] at hlen
      obtain ⟨st2, us, T, f1, f2, f3, f4, f5, f6, f7⟩ := follow_ok hE hjl a1' (sw_flat cs) hb.1 (hb.2.2.1.trans (List.prefix_append _ _)) hn h0 hm' hlen
      rw [a4, hf]
      unfold IsLink at hil
      dsimp only [found]
      rw [if_pos hil, if_neg (by omega), hrp]
      dsimp only
      rw [f1, ok_bind]
      have e1 : sw (join T) ++ cs.flatMap (92 :: ·) = (below t ++ cs).flatMap (92 :: ·) := by
        rw [List.flatMap_append, f6, ← sw_join]
      rw [e1] at f7
      have hspl := f7.split
      rw [← f4] at f7
      have hbc := below_comp hm.fine f5 f6
      have hva : ∀ c ∈ sw (join us), 0 < c ∧ c < 0x80 := by
        intro c hc
        rw [← f4] at hc
        exact fine_chars hm.fine c ((volume_prefix _).subset hc)
      have hall : ∀ g ∈ below t ++ cs, Comp g := by
        intro g hg
        rcases List.mem_append.1 hg with hg | hg
        · exact hbc g hg
        · exact hcs g (List.mem_cons_of_mem _ hg)
      refine ih _ _ us st2 k f7 ⟨f3, fun c hc => (hva c hc).2, by rw [f4]; exact List.prefix_refl _, by rw [f4]; exact List.prefix_refl _⟩ ?_ ?_ hall ?_ ?_
      · rw [hspl, ← f4, List.flatMap_append]; exact hlen
      · intro c hc
        rw [hspl] at hc
        rcases List.mem_append.1 hc with hc | hc
        · exact hva c hc
        · obtain ⟨g, hg, hc⟩ := List.mem_flatMap.1 hc
          rcases List.mem_cons.1 hc with rfl | hc
          · decide
          · exact (hall g hg).2.2 c hc
      · dsimp only at f2; omega
      · rw [List.length_append, ← List.flatMap_append] at hlen
        exact fuel_link hk hlen (by decide)

end Verif.WinReal
