import Verif.WinList.Lemmas

/-!
# C98: listing a directory on Windows
-/

namespace Verif.WinList
open Spec
open Verif.Utf8.Spec (GoodText text Valid Combining)

/-- C98: every history of any number of `Dir` objects does what `Spec.Does` says, never uses a closed handle or find data never
filled in, and never writes outside the buffer; afterwards each open object has a handle of its own and no other handle is
open. -/
theorem win_listing (os : List Op) (hl : LegalAll [] os) :
    ∃ xs w b, run ⟨[], []⟩ os = .ok (xs, w) ∧ DoesAll [] os xs b ∧
      (∀ (h : Nat) (es : List Name), w.handles[h]? = some (some es) → ∃ (i : Nat) (e : Name), b[i]? = some (some (e :: es)) ∧
        w.objs[i]? = some (some ⟨some h, some e⟩)) ∧
      ∀ (i : Nat) (e : Name) (es : List Name), b[i]? = some (some (e :: es)) → ∃ h : Nat, w.objs[i]? = some (some ⟨some h, some e⟩) ∧
        ∀ j x, w.objs[j]? = some (some ⟨some h, x⟩) → j = i := by
  obtain ⟨xs, w, b, h1, h2, h3⟩ := run_ok os rel_empty hl
  refine ⟨xs, w, b, h1, h2, fun h es hs => ?_, fun i e es hi => ?_⟩
  · obtain ⟨i, x, hi⟩ := h3.used h es hs
    obtain ⟨e, es', g0, g1, g2⟩ := h3.opened i h x hi
    rw [hs] at g1
    cases g1
    subst g0
    exact ⟨i, e, g2, hi⟩
  · rcases live h3 hi with ⟨h, -⟩ | ⟨k, e', es', g0, g1, -⟩
    · exact nomatch h
    · cases g0
      exact ⟨k, g1, fun j x hj => h3.own j i k _ _ hj g1⟩

/-- C98: when all objects are closed, read to the end or gone, so are all handles. -/
theorem win_nothing_left (os : List Op) (hl : LegalAll [] os) :
    ∃ xs w b, run ⟨[], []⟩ os = .ok (xs, w) ∧ DoesAll [] os xs b ∧
      ((∀ (i : Nat) (e : Name) (es : List Name), b[i]? ≠ some (some (e :: es))) → ∀ (h : Nat) (es : List Name), w.handles[h]? ≠ some (some es)) := by
  obtain ⟨xs, w, b, h1, h2, h3, -⟩ := win_listing os hl
  refine ⟨xs, w, b, h1, h2, fun hb h es hs => ?_⟩
  obtain ⟨i, e, hi, -⟩ := h3 h es hs
  exact hb i e es hi

/-! ## The loop -/

/-- The buffers hold the UTF-8 forms of these names, one each, in this order. -/
def Names : List (List Nat) → List Name → Prop
  | [], [] => True
  | b :: bs, e :: es => (∃ u tl, Form e u ∧ b = u ++ 0 :: tl) ∧ Names bs es
  | _, _ => False

theorem list_ok : ∀ (es : List Name) {w : W} {a : A} {i : Nat} (buf : List Nat) (size n : Nat), Rel w a →
    a[i]? = some (some es) → size ≤ buf.length → (∀ e ∈ es, ∃ u, Form e u ∧ u.length + 1 < size) → es.length < n →
    ∃ xs w' b, list w i buf size n = .ok (xs, w') ∧ Names xs es ∧ Rel w' b ∧ b[i]? = some (some [])
  | [], w, a, i, buf, size, 0, _, _, _, _, hn => nomatch hn
  | [], w, a, i, buf, size, n + 1, r, h, hs, he, hn => by
    refine ⟨[], w, a, ?_, trivial, r, h⟩
    unfold list
    rw [read_closed r h]
    rfl
  | e :: es, w, a, i, buf, size, 0, _, _, _, _, hn => nomatch hn
  | e :: es, w, a, i, buf, size, n + 1, r, h, hs, he, hn => by
    obtain ⟨u, hu, hus⟩ := he e List.mem_cons_self
    obtain ⟨ok, buf', w', h1, h2, h3⟩ := read_gives r h buf size hs
    obtain ⟨rfl, hb⟩ := h2.room u hu hus
    rw [if_pos rfl] at h3
    obtain ⟨xs, w2, c, g1, g2, g3, g4⟩ := list_ok es buf' size n h3 (List.getElem?_set_self (DirList.lt_of_get h))
      (by rw [h2.inside.1]; exact hs) (fun x hx => he x (List.mem_cons_of_mem _ hx)) (by simpa using hn)
    refine ⟨buf' :: xs, w2, c, ?_, ⟨⟨u, _, hu, hb⟩, g2⟩, g3, g4⟩
    unfold list
    rw [h1, ok_bind]
    dsimp only
    rw [if_pos rfl, g1]
    rfl

/-- C98 (partial): after any history, the loop over a directory all of whose names are UTF-16 text and shorter by two bytes than the
buffer gives each name once, in the order of the system, and leaves the object closed. -/
theorem win_list_all_partial (os : List Op) (hl : LegalAll [] os) (i : Nat) (es : List Name) (buf : List Nat) (size : Nat)
    (hs : size ≤ buf.length) (he : ∀ e ∈ es, ∃ u, Form e u ∧ u.length + 1 < size) :
    ∃ ys w b, run ⟨[], []⟩ os = .ok (ys, w) ∧ DoesAll [] os ys b ∧ (b[i]? = some (some es) →
      ∃ xs w' x, list w i buf size (es.length + 1) = .ok (xs, w') ∧ Names xs es ∧ w'.objs[i]? = some (some ⟨none, x⟩)) := by
  obtain ⟨ys, w, b, h1, h2, h3⟩ := run_ok os rel_empty hl
  refine ⟨ys, w, b, h1, h2, fun hi => ?_⟩
  obtain ⟨xs, w', c, g1, g2, g3, g4⟩ := list_ok es buf size _ h3 hi hs he (Nat.lt_succ_self _)
  obtain ⟨x, hx⟩ := (g3.shut i).mpr g4
  exact ⟨xs, w', x, g1, g2, hx⟩

/-! ## Disagreements -/

theorem form_ascii (e : Name) (h : ∀ c ∈ e, c ≠ 0 ∧ c < 0x80) : Form e e := by
  refine ⟨e, ⟨fun c hc => ?_, fun c hc => ?_⟩, fun hm => (h 0 hm).1 rfl, ?_, ?_⟩
  · have := (h c hc).2
    unfold Valid
    omega
  · have := (h c (List.mem_of_mem_head? hc)).2
    unfold Combining
    omega
  · exact (WinDir.text2_ascii (fun c hc => (h c hc).2)).symm
  · exact (WinOps.text_ascii (fun c hc => (h c hc).2)).symm

/-- C98, negation: a name that fits exactly (with its terminator) is refused, every time again; the names behind it are never seen. -/
theorem win_read_exact (e : Name) (u : List Nat) (hu : Form e u) (es : List Name) (buf : List Nat) (hs : u.length + 1 = buf.length) :
    ∃ w buf', run ⟨[], []⟩ [.create, .open 0 (some (e, es))] = .ok ([⟨true, []⟩, ⟨true, []⟩], w) ∧
      read w 0 buf buf.length = .ok ((false, buf'), w) ∧ list w 0 buf buf.length 1 = .ok ([], w) := by
  obtain ⟨buf', n, lp, hc, hg⟩ := gives_ok e buf buf.length (Nat.le_refl _)
  have hn : buf.length = n := by
    have := hg.exact u hu hs
    simpa using this
  have hr : read ⟨[some es], [some ⟨some 0, some e⟩]⟩ 0 buf buf.length = .ok ((false, buf'), ⟨[some es], [some ⟨some 0, some e⟩]⟩) := by
    unfold read
    rw [show getObj ⟨[some es], [some ⟨some 0, some e⟩]⟩ 0 = .ok ⟨some 0, some e⟩ from rfl, ok_bind]
    dsimp only
    rw [hc, ok_bind]
    dsimp only
    rw [if_pos hn]
  refine ⟨_, buf', rfl, hr, ?_⟩
  unfold list
  rw [show (setObj _ 0 _ : W) = ⟨[some es], [some ⟨some 0, some e⟩]⟩ from rfl, hr]
  rfl

/-- "ab" into three bytes. -/
example : Form [97, 98] [97, 98] ∧ [97, 98].length + 1 = [7, 7, 7].length := ⟨form_ascii _ (by decide), rfl⟩

/-- C98, negation: with too little room a `Read` can return true with some characters missing: of the two characters U+20AC one is given. -/
theorem win_read_mangled :
    (run ⟨[], []⟩ [.create, .open 0 (some ([0x20AC, 0x20AC], [])), .read 0 [7, 7, 7, 7, 7] 5]).map (fun x => x.1[2]?) =
      .ok (some ⟨true, [0xE2, 0x82, 0xAC, 0, 7]⟩) := by decide

/-- C98, negation: the terminator is lost behind an unpaired high surrogate; all the same true is returned. -/
theorem win_read_unterminated (x y z : Nat) :
    (run ⟨[], []⟩ [.create, .open 0 (some ([97, 0xD800], [])), .read 0 [x, y, z] 3]).map (fun r => r.1[2]?) =
      .ok (some ⟨true, [97, y, z]⟩) := by rfl

/-- C98, negation: `Close` after the last name says that the object was not open, though `Open` was the last call that succeeded and every `Read`
returned true. -/
theorem win_close_last (e : Name) (u : List Nat) (hu : Form e u) (buf : List Nat) (size : Nat) (hs : u.length + 1 < size) (hb : size ≤ buf.length) :
    ∃ buf' w, run ⟨[], []⟩ [.create, .open 0 (some (e, [])), .read 0 buf size, .close 0] =
      .ok ([⟨true, []⟩, ⟨true, []⟩, ⟨true, buf'⟩, ⟨false, []⟩], w) ∧ Holds buf buf' u := by
  obtain ⟨buf', n, lp, hc, hg⟩ := gives_ok e buf size hb
  obtain ⟨hn, hh⟩ := hg.room u hu hs
  have hn : size ≠ n := by simpa using hn
  have hr : read ⟨[some []], [some ⟨some 0, some e⟩]⟩ 0 buf size = .ok ((true, buf'), ⟨[none], [some ⟨none, some e⟩]⟩) := by
    unfold read
    rw [show getObj ⟨[some []], [some ⟨some 0, some e⟩]⟩ 0 = .ok ⟨some 0, some e⟩ from rfl, ok_bind]
    dsimp only
    rw [hc, ok_bind]
    dsimp only
    rw [if_neg hn]
    rfl
  refine ⟨buf', ⟨[none], [some ⟨none, some e⟩]⟩, ?_, hh⟩
  unfold run
  rw [show step ⟨[], []⟩ .create = .ok (⟨true, []⟩, ⟨[], [some ⟨none, none⟩]⟩) from rfl, ok_bind]
  dsimp only
  unfold run
  rw [show step ⟨[], [some ⟨none, none⟩]⟩ (.open 0 (some (e, []))) = .ok (⟨true, []⟩, ⟨[some []], [some ⟨some 0, some e⟩]⟩) from rfl, ok_bind]
  dsimp only
  unfold run
  unfold step
  dsimp only
  rw [hr]
  rfl

/-! ## The cases are not empty -/

/-- Two objects over directories with "." and "a", "bc"; one is read to the end, one is opened anew while open. -/
def sample : List Op :=
  [.create, .open 0 (some ([46], [[97]])), .create, .open 1 (some ([98, 99], [])), .read 0 [1, 2, 3] 3, .open 1 none,
    .read 0 [1, 2, 3] 3, .read 1 [] 0, .open 1 (some ([98, 99], [])), .read 0 [1, 2, 3] 3, .read 1 [1, 2, 3] 2, .close 0,
    .destroy 1]

example : LegalAll [] sample := by simp [sample, LegalAll, Legal, next]

example : (run ⟨[], []⟩ sample).map (fun x => (x.1.map (fun o => (o.result, o.buf)), x.2.handles)) =
    .ok ([(true, []), (true, []), (true, []), (true, []), (true, [46, 0, 3]), (false, []), (true, [97, 0, 3]),
      (false, []), (true, []), (false, [1, 2, 3]), (false, [98, 99, 3]), (false, []), (true, [])],
      [none, none, none]) := rfl

example : (run ⟨[], []⟩ [.create, .open 0 (some ([46], [[97], [0xE4]]))]).bind (fun x => (list x.2 0 [1, 2, 3, 4] 4 4).map Prod.fst) =
    .ok [[46, 0, 3, 4], [97, 0, 3, 4], [0xC3, 0xA4, 0, 4]] := rfl

end Verif.WinList
