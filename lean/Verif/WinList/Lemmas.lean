import Verif.WinList.Spec
import Verif.Utf8.Props
import Verif.DirList.Props
import Verif.WinDir.AbsLemmas

/-!
# Lemmas for C98
-/

namespace Verif.WinList
open Spec
open Verif.Utf8 (pushAll stored codes convertTo D)
open Verif.Utf8.Spec (GoodText text Valid Combining enc8)
open Verif.WinOps (text_append good_zero)
open Verif.DirList (lt_of_get get_set set_same)

/-! ## The conversion of a name -/

theorem pushAll_append (max : Nat) : ∀ (A B : List Nat) (d d' : D), pushAll A d max = .ok d' → pushAll (A ++ B) d max = pushAll B d' max
  | [], B, d, d', h => by cases h; rfl
  | c :: A, B, d, d', h => by
    rw [List.cons_append]
    rw [pushAll] at h ⊢
    cases ea : Utf8.appendUTF8 c d max with
    | error e => rw [ea] at h; cases h
    | ok q =>
      rw [ea, ok_bind] at h
      rw [ok_bind]
      exact pushAll_append max A B q.2 d' h

theorem Spec.Form.unique {e : Name} {u v : List Nat} (h : Form e u) (h' : Form e v) : u = v := by
  obtain ⟨c1, g1, _, rfl, rfl⟩ := h
  obtain ⟨c2, g2, _, e2, rfl⟩ := h'
  have := congrArg Utf8.Spec.decode16 e2
  rw [Utf8.decode16_text c1 g1.1, Utf8.decode16_text c2 g2.1] at this
  rw [this]

theorem text1_zero (cps : List Nat) : text 1 (cps ++ [0]) = text 1 cps ++ [0] := by rw [text_append]; rfl

theorem text2_zero (cps : List Nat) : text 2 (cps ++ [0]) = text 2 cps ++ [0] := by rw [text_append]; rfl

theorem inside_ok {buf v : List Nat} {size : Nat} (h : v.length ≤ size) (hs : size ≤ buf.length) :
    (v ++ buf.drop v.length).length = buf.length ∧ (v ++ buf.drop v.length).drop size = buf.drop size := by
  refine ⟨by simp; omega, ?_⟩
  rw [List.drop_append, List.drop_eq_nil_of_le h, List.drop_drop, List.nil_append]
  congr 1
  omega

theorem gives_ok (e : Name) (buf : List Nat) (size : Nat) (hs : size ≤ buf.length) :
    ∃ buf' n lp, convertTo (e ++ [0]) 2 (some buf) size none = .ok (⟨some buf', n⟩, lp) ∧ Gives e buf size (decide (size ≠ n)) buf' := by
  by_cases hf : ∃ u, Form e u
  · obtain ⟨u, hu⟩ := hf
    obtain ⟨cps, hg, h0, he, hu'⟩ := id hu
    have hcodes : codes 2 (e ++ [0]) = cps ++ [0] := by
      rw [he, ← text2_zero]
      exact Utf8.decode16_text _ (good_zero hg).1
    obtain ⟨kept, k1, k2, k3, k4, k5⟩ := Utf8.pushAll_total size cps buf 0 (Nat.zero_le _) hs
    have hz : Valid 0 := by unfold Valid; decide
    have hz' : ¬ Combining 0 := by unfold Combining; decide
    have hnc : ∀ n, ¬ (n = 0 ∧ Combining 0) := fun n h => hz' h.2
    have hp := pushAll_append size cps [0] _ _ k5
    rw [Utf8.stored_zero] at hp
    by_cases hfit : (text 1 kept).length + 1 ≤ size
    · have hlen := (inside_ok (v := text 1 kept) (size := size) (by omega) hs).1
      have h1 : pushAll (cps ++ [0]) ⟨some buf, 0⟩ size = .ok ⟨some (text 1 kept ++ 0 :: buf.drop ((text 1 kept).length + 1)), (text 1 kept).length + 1⟩ := by
        rw [hp]
        have := Utf8.pushAll_fit size [0] (text 1 kept ++ buf.drop (text 1 kept).length) (text 1 kept).length
          (by
            have : (text 1 (Utf8.accepted (text 1 kept).length [0])).length ≤ 1 := by
              unfold Utf8.accepted
              split <;> simp [hz, hz', text, Utf8.Spec.enc, enc8]
            omega)
          (by omega)
        rw [this]
        have ea : text 1 (Utf8.accepted (text 1 kept).length [0]) = [0] := by
          unfold Utf8.accepted
          split <;> simp [hz, hz', text, Utf8.Spec.enc, enc8]
        rw [ea]
        unfold stored
        rw [List.take_left, List.length_singleton]
        congr 2
        rw [List.drop_append, List.drop_eq_nil_of_le (by omega), List.drop_drop]
        simp
      obtain ⟨lp, h2⟩ := Utf8.convertTo_push (e ++ [0]) 2 (some buf) size none _ (by rw [hcodes]; exact h1)
      have hin := inside_ok (v := text 1 kept ++ [0]) (size := size) (buf := buf) (by simp; omega) hs
      have hl1 : (text 1 kept ++ [0]).length = (text 1 kept).length + 1 := by simp
      rw [List.append_assoc, hl1] at hin
      have kfull : u.length + 1 ≤ size → text 1 kept = u := by
        intro hl
        have := Utf8.pushAll_fit size cps buf 0 (by rw [Utf8.accepted_good hg, ← hu']; omega) hs
        rw [Utf8.accepted_good hg, k5, Utf8.stored_zero, Utf8.stored_zero] at this
        rw [Except.ok.injEq, D.mk.injEq] at this
        obtain ⟨a1, a2⟩ := this
        rw [Option.some.injEq] at a1
        rw [hu']
        exact List.append_inj_left a1 a2
      refine ⟨_, _, lp, h2, hin, ?_, ?_, ?_⟩
      · intro v hv hl
        cases hv.unique hu
        have := kfull (by omega)
        rw [this]
        exact ⟨by simp; omega, rfl⟩
      · intro v hv hl
        cases hv.unique hu
        have := kfull (by omega)
        rw [this]
        simp [hl]
      · intro v hv hok
        have hne : size ≠ (text 1 kept).length + 1 := by simpa using hok
        exact ⟨cps, kept, he, k1, by omega, rfl⟩
    · have hn : (text 1 kept).length = size := by omega
      have h1 : pushAll (cps ++ [0]) ⟨some buf, 0⟩ size = .ok ⟨some (text 1 kept ++ buf.drop (text 1 kept).length), (text 1 kept).length⟩ := by
        rw [hp, pushAll, Utf8.appendUTF8_valid _ _ hz (hnc _), Utf8.store_full _ _ _ _ (Utf8.enc8_ne 0) (by
          show size < (text 1 kept).length + (enc8 0).length
          have : (enc8 0).length = 1 := rfl
          omega), ok_bind]
        rfl
      obtain ⟨lp, h2⟩ := Utf8.convertTo_push (e ++ [0]) 2 (some buf) size none _ (by rw [hcodes]; exact h1)
      refine ⟨_, _, lp, h2, inside_ok (by omega) hs, ?_, ?_, ?_⟩
      · intro v hv hl
        exfalso
        cases hv.unique hu
        have := Utf8.pushAll_fit size cps buf 0 (by rw [Utf8.accepted_good hg, ← hu']; omega) hs
        rw [Utf8.accepted_good hg, k5, Utf8.stored_zero, Utf8.stored_zero] at this
        rw [Except.ok.injEq, D.mk.injEq] at this
        rw [hu'] at hl
        omega
      · intro _ _ _
        simp [hn]
      · intro v hv hok
        simp [hn] at hok
  · obtain ⟨cps, lp, _, h2, h3⟩ := Utf8.convert_to_safe (e ++ [0]) 2 buf size none hs
    exact ⟨_, _, lp, h3, inside_ok h2 hs, fun u h => absurd ⟨u, h⟩ hf, fun u h => absurd ⟨u, h⟩ hf, fun u h => absurd ⟨u, h⟩ hf⟩

/-! ## The objects -/

/-- The state agrees with the names still to come: objects that are open have a handle of their own, and no other handle is open. -/
structure Rel (w : W) (a : A) : Prop where
  len : w.objs.length = a.length
  dead : ∀ i : Nat, w.objs[i]? = some none ↔ a[i]? = some none
  shut : ∀ i : Nat, (∃ x, w.objs[i]? = some (some ⟨none, x⟩)) ↔ a[i]? = some (some [])
  opened : ∀ (i h : Nat) x, w.objs[i]? = some (some ⟨some h, x⟩) →
    ∃ e es, x = some e ∧ w.handles[h]? = some (some es) ∧ a[i]? = some (some (e :: es))
  own : ∀ (i j h : Nat) x y, w.objs[i]? = some (some ⟨some h, x⟩) → w.objs[j]? = some (some ⟨some h, y⟩) → i = j
  used : ∀ (h : Nat) (es : List Name), w.handles[h]? = some (some es) → ∃ (i : Nat) (x : Option Name), w.objs[i]? = some (some ⟨some h, x⟩)

/-- Of a live object: closed, or open with its handle. -/
theorem live {w : W} {a : A} {i : Nat} {x : List Name} (r : Rel w a) (h : a[i]? = some (some x)) :
    (x = [] ∧ ∃ y, w.objs[i]? = some (some ⟨none, y⟩)) ∨
    ∃ k e es, x = e :: es ∧ w.objs[i]? = some (some ⟨some k, some e⟩) ∧ w.handles[k]? = some (some es) := by
  cases hx : w.objs[i]? with
  | none =>
    rw [List.getElem?_eq_none_iff, r.len] at hx
    have := lt_of_get h
    omega
  | some p =>
    cases p with
    | none => rw [(r.dead i).mp hx] at h; cases h
    | some p =>
      obtain ⟨p, y⟩ := p
      cases p with
      | none =>
        rw [(r.shut i).mp ⟨y, hx⟩] at h
        cases h
        exact .inl ⟨rfl, y, rfl⟩
      | some k =>
        obtain ⟨e, es, h0, h1, h2⟩ := r.opened i k y hx
        rw [h2] at h
        cases h
        subst h0
        exact .inr ⟨k, e, es, rfl, rfl, h1⟩

/-- Changing one object that has no handle, or gets a new one, or gives its own up. -/
theorem Rel.shutting {w : W} {a : A} {i k : Nat} {e : Name} (r : Rel w a) (h1 : w.objs[i]? = some (some ⟨some k, some e⟩))
    (y : Option Name) (hia : i < a.length) :
    Rel (setObj { w with handles := w.handles.set k none } i ⟨none, y⟩) (a.set i (some [])) := by
  have hiw : i < w.objs.length := by rw [r.len]; exact hia
  obtain ⟨e', es', -, h2, h3⟩ := r.opened i k _ h1
  have hk : k < w.handles.length := lt_of_get h2
  unfold setObj
  refine ⟨by simp [r.len], fun j => ?_, fun j => ?_, fun j m x h => ?_, fun j l m x z h3 h4 => ?_, fun m es' h => ?_⟩
  · dsimp only
    rw [get_set hiw, get_set hia]
    split
    · exact ⟨(fun h => nomatch h), (fun h => nomatch h)⟩
    · exact r.dead j
  · dsimp only
    rw [get_set hiw, get_set hia]
    split
    · exact ⟨fun _ => rfl, fun _ => ⟨y, rfl⟩⟩
    · exact r.shut j
  · dsimp only at h ⊢
    rw [get_set hiw] at h
    rw [get_set hia, get_set hk]
    split at h
    · cases h
    · next hne =>
      rw [if_neg hne, if_neg (fun q : m = k => hne (r.own j i k _ _ (q ▸ h) h1))]
      exact r.opened j m x h
  · dsimp only at h3 h4
    rw [get_set hiw] at h3 h4
    split at h3
    · cases h3
    · split at h4
      · cases h4
      · exact r.own j l m _ _ h3 h4
  · dsimp only at h ⊢
    rw [get_set hk] at h
    split at h
    · cases h
    · next hne =>
      obtain ⟨j, x, hj⟩ := r.used m es' h
      refine ⟨j, x, ?_⟩
      rw [get_set hiw, if_neg]
      · exact hj
      · rintro rfl
        rw [h1] at hj
        cases hj
        exact hne rfl

theorem close_ok {w : W} {a : A} {i : Nat} {x : List Name} (r : Rel w a) (h : a[i]? = some (some x)) :
    ∃ w', close w i = .ok (!x.isEmpty, w') ∧ Rel w' (a.set i (some [])) := by
  have hia : i < a.length := lt_of_get h
  rcases live r h with ⟨rfl, y, h1⟩ | ⟨k, e, es, rfl, h1, h2⟩
  · refine ⟨w, ?_, ?_⟩
    · unfold close getObj
      rw [h1]
      rfl
    · rw [show a.set i (some []) = a from set_same h]
      exact r
  · refine ⟨_, ?_, r.shutting h1 (some e) hia⟩
    unfold close getObj
    rw [h1]
    dsimp only
    rw [ok_bind]
    dsimp only
    unfold handle
    rw [h2]
    rfl

/-- Which objects there are. -/
def alive (a : A) : List Bool := a.map Option.isSome

theorem alive_live {a : A} {i : Nat} (h : (alive a)[i]? = some true) : ∃ x, a[i]? = some (some x) := by
  unfold alive at h
  rw [List.getElem?_map] at h
  cases hx : a[i]? with
  | none => rw [hx] at h; cases h
  | some y =>
    cases y with
    | none => rw [hx] at h; cases h
    | some x => exact ⟨x, rfl⟩

theorem live_alive {a : A} {i : Nat} {x : List Name} (h : a[i]? = some (some x)) :
    (alive a)[i]? = some true := by
  unfold alive
  rw [List.getElem?_map, h]
  rfl

theorem alive_set {a : A} {i : Nat} (x : List Name) (h : (alive a)[i]? = some true) :
    alive (a.set i (some x)) = alive a := by
  have h2 : alive (a.set i (some x)) = (alive a).set i true := by
    unfold alive
    rw [List.map_set]
    rfl
  rw [h2, set_same h]

theorem alive_next {a b : A} {o : Op} {r : Out} (hl : Legal (alive a) o) (h : Does a o r b) :
    alive b = next (alive a) o := by
  cases h with
  | create => unfold next alive; simp
  | openYes => exact alive_set _ hl
  | openNo => exact alive_set _ hl
  | readClosed => rfl
  | readRefused => rfl
  | readName => exact alive_set _ hl.1
  | closeOpen => exact alive_set _ hl
  | closeClosed => rfl
  | destroy =>
    unfold next alive
    dsimp only
    rw [List.map_set]
    rfl

theorem step_ok {w : W} {a : A} (o : Op) (r : Rel w a) (hl : Legal (alive a) o) :
    ∃ x w' b, step w o = .ok (x, w') ∧ Does a o x b ∧ Rel w' b := by
  cases o with
  | create =>
    refine ⟨_, _, _, rfl, .create a, ?_⟩
    unfold create
    have e : ∀ {α : Type} (l : List α) (x y : α) (i : Nat), (l ++ [x])[i]? = some y ↔
        l[i]? = some y ∨ (i = l.length ∧ x = y) := by
      intro α l x y i
      rcases Nat.lt_trichotomy i l.length with h | h | h
      · rw [List.getElem?_append_left h]
        exact ⟨Or.inl, fun h' => h'.resolve_right (fun h' => by omega)⟩
      · subst h
        simp
      · rw [List.getElem?_eq_none (by simp; omega), List.getElem?_eq_none (by omega)]
        exact ⟨(fun h => nomatch h), fun h' => h'.elim (fun h => nomatch h) (fun h' => by omega)⟩
    refine ⟨by simp [r.len], fun j => ?_, fun j => ?_, fun j m x h => ?_, fun j l m x y h1 h2 => ?_, fun m es h => ?_⟩
    · rw [e, e, r.dead j, r.len]
      simp
    · simp only [e]
      rw [← r.shut j, ← r.len]
      constructor
      · rintro ⟨x, h | ⟨h, _⟩⟩
        · exact .inl ⟨x, h⟩
        · exact .inr ⟨h, by trivial⟩
      · rintro (⟨x, h⟩ | ⟨h, _⟩)
        · exact ⟨x, .inl h⟩
        · exact ⟨none, .inr ⟨h, rfl⟩⟩
    · rw [e] at h
      have h := h.resolve_right (fun h => nomatch h.2)
      obtain ⟨n, es, g0, g1, g2⟩ := r.opened j m x h
      exact ⟨n, es, g0, g1, (e _ _ _ _).mpr (Or.inl g2)⟩
    · rw [e] at h1 h2
      exact r.own j l m x y (h1.resolve_right (fun h => nomatch h.2)) (h2.resolve_right (fun h => nomatch h.2))
    · obtain ⟨j, x, hj⟩ := r.used m es h
      exact ⟨j, x, (e _ _ _ _).mpr (Or.inl hj)⟩
  | close i =>
    obtain ⟨x, hx⟩ := alive_live hl
    obtain ⟨w', h1, h2⟩ := close_ok r hx
    refine ⟨⟨!x.isEmpty, []⟩, w', a.set i (some []), ?_, ?_, h2⟩
    · unfold step
      dsimp only
      rw [h1]
      rfl
    · cases x with
      | nil =>
        rw [show a.set i (some []) = a from set_same hx]
        exact .closeClosed a i hx
      | cons e es => exact .closeOpen a i e es hx
  | destroy i =>
    obtain ⟨x, hx⟩ := alive_live hl
    obtain ⟨w', h1, h2⟩ := close_ok r hx
    have hia : i < (a.set i (some [])).length := by simp; exact lt_of_get hx
    have hiw : i < w'.objs.length := by rw [h2.len]; exact hia
    obtain ⟨y, hc⟩ := (h2.shut i).mpr (by rw [List.getElem?_set_self (lt_of_get hx)])
    refine ⟨⟨true, []⟩, { w' with objs := w'.objs.set i none }, a.set i none, ?_, .destroy a i, ?_⟩
    · unfold step
      dsimp only
      unfold destroy
      rw [h1]
      rfl
    · rw [← Verif.DirList.set_set_same a i (some []) none]
      refine ⟨by simp [h2.len], fun j => ?_, fun j => ?_, fun j m x h => ?_, fun j l m x y h3 h4 => ?_, fun m es h => ?_⟩
      · dsimp only
        rw [get_set hiw, get_set hia]
        split
        · exact ⟨fun _ => rfl, fun _ => rfl⟩
        · exact h2.dead j
      · dsimp only
        rw [get_set hiw, get_set hia]
        split
        · exact ⟨(fun h => nomatch h), (fun h => nomatch h)⟩
        · exact h2.shut j
      · dsimp only at h
        rw [get_set hiw] at h
        rw [get_set hia]
        split at h
        · exact nomatch h
        · next hne => rw [if_neg hne]; exact h2.opened j m x h
      · dsimp only at h3 h4
        rw [get_set hiw] at h3 h4
        split at h3
        · exact nomatch h3
        · split at h4
          · exact nomatch h4
          · exact h2.own j l m x y h3 h4
      · obtain ⟨j, x, hj⟩ := h2.used m es h
        refine ⟨j, x, ?_⟩
        dsimp only
        rw [get_set hiw, if_neg]
        · exact hj
        · rintro rfl
          rw [hc] at hj
          cases hj
  | «open» i d =>
    obtain ⟨x, hx⟩ := alive_live hl
    obtain ⟨w', h1, h2⟩ := close_ok r hx
    have hia : i < (a.set i (some [])).length := by simp; exact lt_of_get hx
    have hiw : i < w'.objs.length := by rw [h2.len]; exact hia
    obtain ⟨y, hc⟩ := (h2.shut i).mpr (by rw [List.getElem?_set_self (lt_of_get hx)])
    cases d with
    | none =>
      refine ⟨⟨false, []⟩, w', a.set i (some []), ?_, .openNo a i, h2⟩
      unfold step
      dsimp only
      unfold openDir
      rw [h1]
      rfl
    | some p =>
      obtain ⟨e, es⟩ := p
      refine ⟨⟨true, []⟩, setObj { w' with handles := w'.handles ++ [some es] } i ⟨some w'.handles.length, some e⟩,
        a.set i (some (e :: es)), ?_, .openYes a i e es, ?_⟩
      · unfold step
        dsimp only
        unfold openDir
        rw [h1]
        rfl
      · rw [← Verif.DirList.set_set_same a i (some []) (some (e :: es))]
        unfold setObj
        have hlt : ∀ (j m : Nat) x, w'.objs[j]? = some (some ⟨some m, x⟩) → m < w'.handles.length := by
          intro j m x hj
          obtain ⟨_, es', _, h3, -⟩ := h2.opened j m x hj
          exact lt_of_get h3
        refine ⟨by simp [h2.len], fun j => ?_, fun j => ?_, fun j m x h => ?_, fun j l m x y h3 h4 => ?_, fun m es' h => ?_⟩
        · dsimp only
          rw [get_set hiw, get_set hia]
          split
          · exact ⟨(fun h => nomatch h), (fun h => nomatch h)⟩
          · exact h2.dead j
        · dsimp only
          rw [get_set hiw, get_set hia]
          split
          · exact ⟨(fun ⟨_, h⟩ => nomatch h), (fun h => nomatch h)⟩
          · exact h2.shut j
        · dsimp only at h ⊢
          rw [get_set hiw] at h
          rw [get_set hia]
          split at h
          · next hj =>
            cases h
            rw [if_pos hj]
            exact ⟨e, es, rfl, by simp, rfl⟩
          · next hne =>
            rw [if_neg hne, List.getElem?_append_left (hlt j m x h)]
            exact h2.opened j m x h
        · dsimp only at h3 h4
          rw [get_set hiw] at h3 h4
          split at h3
          · next hj =>
            split at h4
            · next hl => rw [hj, hl]
            · cases h3
              exact absurd (hlt l _ _ h4) (Nat.lt_irrefl _)
          · split at h4
            · cases h4
              exact absurd (hlt j _ _ h3) (Nat.lt_irrefl _)
            · exact h2.own j l m _ _ h3 h4
        · dsimp only at h ⊢
          rcases Nat.lt_trichotomy m w'.handles.length with hm | hm | hm
          · rw [List.getElem?_append_left hm] at h
            obtain ⟨j, x, hj⟩ := h2.used m es' h
            refine ⟨j, x, ?_⟩
            rw [get_set hiw, if_neg]
            · exact hj
            · rintro rfl
              rw [hc] at hj
              cases hj
          · exact ⟨i, some e, by rw [get_set hiw, if_pos rfl, hm]⟩
          · rw [List.getElem?_eq_none (by simp; omega)] at h
            exact nomatch h
  | read i buf size =>
    obtain ⟨hl, hs⟩ := hl
    obtain ⟨x, hx⟩ := alive_live hl
    rcases live r hx with ⟨rfl, y, h1⟩ | ⟨k, e, es, rfl, h1, h2⟩
    · refine ⟨⟨false, buf⟩, w, a, ?_, .readClosed a i buf size hx, r⟩
      unfold step
      dsimp only
      unfold read getObj
      rw [h1]
      rfl
    · obtain ⟨buf', n, lp, hc, hg⟩ := gives_ok e buf size hs
      have hread : read w i buf size = (if size = n then .ok ((false, buf'), w)
          else do
            let es ← handle w k
            match es with
            | [] => do
              let (_, w) ← close w i
              .ok ((true, buf'), w)
            | e' :: es => .ok ((true, buf'), setObj { w with handles := w.handles.set k (some es) } i ⟨some k, some e'⟩)) := by
        unfold read getObj
        rw [h1]
        dsimp only
        rw [ok_bind]
        dsimp only
        rw [hc, ok_bind]
        rfl
      have hia : i < a.length := lt_of_get hx
      have hiw : i < w.objs.length := by rw [r.len]; exact hia
      have hk : k < w.handles.length := lt_of_get h2
      unfold step
      dsimp only
      rw [hread]
      by_cases hn : size = n
      · rw [if_pos hn]
        rw [show decide (size ≠ n) = false by simp [hn]] at hg
        exact ⟨_, w, a, rfl, .readRefused a i buf buf' size e es hx hg, r⟩
      · rw [if_neg hn]
        rw [show decide (size ≠ n) = true by simp [hn]] at hg
        cases es with
        | nil =>
          obtain ⟨w', h3, h4⟩ := close_ok r hx
          refine ⟨⟨true, buf'⟩, w', _, ?_, .readName a i buf buf' size e [] hx hg, h4⟩
          unfold handle
          rw [h2]
          dsimp only
          rw [ok_bind]
          dsimp only
          rw [h3]
          rfl
        | cons e' es =>
          refine ⟨⟨true, buf'⟩, setObj { w with handles := w.handles.set k (some es) } i ⟨some k, some e'⟩, _, ?_,
            .readName a i buf buf' size e (e' :: es) hx hg, ?_⟩
          · unfold handle
            rw [h2]
            rfl
          · unfold setObj
            refine ⟨by simp [r.len], fun j => ?_, fun j => ?_, fun j m x h => ?_, fun j l m x y h3 h4 => ?_, fun m es' h => ?_⟩
            · dsimp only
              rw [get_set hiw, get_set hia]
              split
              · exact ⟨(fun h => nomatch h), (fun h => nomatch h)⟩
              · exact r.dead j
            · dsimp only
              rw [get_set hiw, get_set hia]
              split
              · exact ⟨(fun ⟨_, h⟩ => nomatch h), (fun h => nomatch h)⟩
              · exact r.shut j
            · dsimp only at h ⊢
              rw [get_set hiw] at h
              rw [get_set hia, get_set hk]
              split at h
              · next hj =>
                cases h
                rw [if_pos rfl, if_pos hj]
                exact ⟨e', es, rfl, rfl, rfl⟩
              · next hne =>
                rw [if_neg hne, if_neg (fun q : m = k => hne (r.own j i k _ _ (q ▸ h) h1))]
                exact r.opened j m x h
            · dsimp only at h3 h4
              rw [get_set hiw] at h3 h4
              split at h3
              · next hj =>
                cases h3
                split at h4
                · next hl => rw [hj, hl]
                · exact absurd (r.own l i k _ _ h4 h1) (by assumption)
              · split at h4
                · cases h4
                  exact absurd (r.own j i k _ _ h3 h1) (by assumption)
                · exact r.own j l m _ _ h3 h4
            · dsimp only at h ⊢
              rw [get_set hk] at h
              split at h
              · next hm => exact ⟨i, some e', by rw [get_set hiw, if_pos rfl, hm]⟩
              · next hm =>
                obtain ⟨j, x, hj⟩ := r.used m es' h
                refine ⟨j, x, ?_⟩
                rw [get_set hiw, if_neg]
                · exact hj
                · rintro rfl
                  rw [h1] at hj
                  cases hj
                  exact hm rfl

theorem run_ok : ∀ (os : List Op) {w : W} {a : A}, Rel w a → LegalAll (alive a) os →
    ∃ xs w' b, run w os = .ok (xs, w') ∧ DoesAll a os xs b ∧ Rel w' b
  | [], w, a, r, _ => ⟨[], w, a, rfl, .nil a, r⟩
  | o :: os, w, a, r, hl => by
    obtain ⟨h, hs⟩ := hl
    obtain ⟨x, w1, b, h1, h2, h3⟩ := step_ok o r h
    obtain ⟨xs, w2, c, h4, h5, h6⟩ := run_ok os h3 (by rw [alive_next h h2]; exact hs)
    refine ⟨x :: xs, w2, c, ?_, .cons h2 h5, h6⟩
    unfold run
    rw [h1, ok_bind]
    dsimp only
    rw [h4]
    rfl

theorem rel_empty : Rel ⟨[], []⟩ [] :=
  ⟨rfl, by simp, by simp, by simp, by simp, by simp⟩

/-- `Read` of an object with names still to come. -/
theorem read_gives {w : W} {a : A} {i : Nat} {e : Name} {es : List Name} (r : Rel w a)
    (h : a[i]? = some (some (e :: es))) (buf : List Nat) (size : Nat) (hs : size ≤ buf.length) :
    ∃ ok buf' w', read w i buf size = .ok ((ok, buf'), w') ∧ Gives e buf size ok buf' ∧
      Rel w' (if ok then a.set i (some es) else a) := by
  obtain ⟨x, w', b, h1, h2, h3⟩ := step_ok (.read i buf size) r ⟨live_alive h, hs⟩
  cases hr : read w i buf size with
  | error u => unfold step at h1; dsimp only at h1; rw [hr] at h1; cases h1
  | ok y =>
    obtain ⟨⟨q, buf'⟩, w2⟩ := y
    unfold step at h1
    dsimp only at h1
    rw [hr] at h1
    cases h1
    generalize hx : (⟨q, buf'⟩ : Out) = x at h2
    cases h2 with
    | readClosed _ _ _ g => rw [h] at g; cases g
    | readName _ _ b' _ e' es' g g2 =>
      rw [h] at g
      cases g
      cases hx
      exact ⟨true, _, w2, rfl, g2, h3⟩
    | readRefused _ _ b' _ e' es' g g2 =>
      rw [h] at g
      cases g
      cases hx
      exact ⟨false, _, w2, rfl, g2, h3⟩

theorem read_closed {w : W} {a : A} {i : Nat} (r : Rel w a) (h : a[i]? = some (some [])) (buf : List Nat) (size : Nat) :
    read w i buf size = .ok ((false, buf), w) := by
  rcases live r h with ⟨_, y, h1⟩ | ⟨k, e, es, h0, _⟩
  · unfold read getObj
    rw [h1]
    rfl
  · cases h0

end Verif.WinList
