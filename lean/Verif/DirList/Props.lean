import Verif.DirList.Spec
import Verif.File.LineLemmas

/-!
# Property theorems: listing a directory (C76)
-/

namespace Verif.DirList
open Spec
open Verif.File (memcpyTo_ok)

/-- The streams behind the objects: each open object has its own stream, and there are no others. -/
structure Rel (w : W) (a : A) : Prop where
  len : w.objs.length = a.length
  dead : ∀ i : Nat, w.objs[i]? = some none ↔ a[i]? = some none
  shut : ∀ i : Nat, w.objs[i]? = some (some none) ↔ a[i]? = some (some none)
  opened : ∀ (i h : Nat), w.objs[i]? = some (some (some h)) →
    ∃ es, w.streams[h]? = some (some es) ∧ a[i]? = some (some (some es))
  own : ∀ (i j h : Nat), w.objs[i]? = some (some (some h)) → w.objs[j]? = some (some (some h)) → i = j
  used : ∀ (h : Nat) (es : List Name), w.streams[h]? = some (some es) → ∃ i : Nat, w.objs[i]? = some (some (some h))

theorem lt_of_get {α : Type} {l : List α} {i : Nat} {x : α} (h : l[i]? = some x) : i < l.length := by
  rw [List.getElem?_eq_some_iff] at h
  exact h.1

theorem get_set {α : Type} {l : List α} {i : Nat} (hi : i < l.length) (x : α) (j : Nat) :
    (l.set i x)[j]? = if j = i then some x else l[j]? := by
  by_cases h : j = i
  · rw [h, List.getElem?_set_self hi, if_pos rfl]
  · rw [List.getElem?_set_ne (Ne.symm h), if_neg h]

theorem set_same {α : Type} {l : List α} {i : Nat} {x : α} (h : l[i]? = some x) : l.set i x = l := by
  refine List.ext_getElem? fun j => ?_
  rw [get_set (lt_of_get h)]
  split
  · next hj => rw [hj, h]
  · rfl

/-- Of a live object: closed, or open with its stream. -/
theorem live {w : W} {a : A} {i : Nat} {x : Option (List Name)} (r : Rel w a) (h : a[i]? = some (some x)) :
    (x = none ∧ w.objs[i]? = some (some none)) ∨
    ∃ k es, x = some es ∧ w.objs[i]? = some (some (some k)) ∧ w.streams[k]? = some (some es) := by
  cases hx : w.objs[i]? with
  | none =>
    rw [List.getElem?_eq_none_iff, r.len] at hx
    have := lt_of_get h
    omega
  | some p =>
    cases p with
    | none => rw [(r.dead i).mp hx] at h; cases h
    | some p =>
      cases p with
      | none =>
        rw [(r.shut i).mp hx] at h
        cases h
        exact Or.inl ⟨rfl, rfl⟩
      | some k =>
        obtain ⟨es, h1, h2⟩ := r.opened i k hx
        rw [h2] at h
        cases h
        exact Or.inr ⟨k, es, rfl, rfl, h1⟩

theorem close_ok {w : W} {a : A} {i : Nat} {x : Option (List Name)} (r : Rel w a) (h : a[i]? = some (some x)) :
    ∃ w', close w i = .ok (x.isSome, w') ∧ Rel w' (a.set i (some none)) := by
  have hia : i < a.length := lt_of_get h
  have hiw : i < w.objs.length := by rw [r.len]; exact hia
  rcases live r h with ⟨rfl, h1⟩ | ⟨k, es, rfl, h1, h2⟩
  · refine ⟨w, ?_, ?_⟩
    · unfold close getObj
      rw [h1]
      rfl
    · rw [show a.set i (some none) = a from set_same h]
      exact r
  · refine ⟨setObj { w with streams := w.streams.set k none } i none, ?_, ?_⟩
    · unfold close getObj
      rw [h1]
      dsimp only
      rw [ok_bind]
      dsimp only
      unfold stream
      rw [h2]
      rfl
    · have hk : k < w.streams.length := lt_of_get h2
      unfold setObj
      refine ⟨by simp [r.len], fun j => ?_, fun j => ?_, fun j m => ?_, fun j l m => ?_, fun m es' => ?_⟩
      · dsimp only
        rw [get_set hiw, get_set hia]
        split
        · exact ⟨(fun h => nomatch h), (fun h => nomatch h)⟩
        · exact r.dead j
      · dsimp only
        rw [get_set hiw, get_set hia]
        split
        · exact ⟨fun _ => rfl, fun _ => rfl⟩
        · exact r.shut j
      · dsimp only
        rw [get_set hiw, get_set hia]
        intro hj
        split at hj
        · exact nomatch hj
        · next hne =>
          rw [if_neg hne, get_set hk, if_neg (fun e : m = k => hne (r.own j i k (e ▸ hj) h1))]
          exact r.opened j m hj
      · dsimp only
        rw [get_set hiw, get_set hiw]
        intro h3 h4
        split at h3
        · exact nomatch h3
        · split at h4
          · exact nomatch h4
          · exact r.own j l m h3 h4
      · dsimp only
        rw [get_set hk]
        intro hm
        split at hm
        · exact nomatch hm
        · next hne =>
          obtain ⟨j, hj⟩ := r.used m es' hm
          refine ⟨j, ?_⟩
          rw [get_set hiw, if_neg]
          · exact hj
          · rintro rfl
            rw [h1] at hj
            cases hj
            exact hne rfl

theorem set_set_same {α : Type} (l : List α) (i : Nat) (x y : α) : (l.set i x).set i y = l.set i y := by
  exact List.set_set _ ..

/-- Which objects there are. -/
def alive (a : A) : List Bool := a.map Option.isSome

theorem alive_live {a : A} {i : Nat} (h : (alive a)[i]? = some true) : ∃ x, a[i]? = some (some x) := by
  unfold alive at h
  rw [List.getElem?_map] at h
  cases hx : a[i]? with
  | none => rw [hx] at h; cases h
  | some y =>
    cases y with
    | none => rw [hx] at h; cases h
    | some x => exact ⟨x, rfl⟩

theorem live_alive {a : A} {i : Nat} {x : Option (List Name)} (h : a[i]? = some (some x)) :
    (alive a)[i]? = some true := by
  unfold alive
  rw [List.getElem?_map, h]
  rfl

theorem alive_set {a : A} {i : Nat} (x : Option (List Name)) (h : (alive a)[i]? = some true) :
    alive (a.set i (some x)) = alive a := by
  have h2 : alive (a.set i (some x)) = (alive a).set i true := by
    unfold alive
    rw [List.map_set]
    rfl
  rw [h2, set_same h]

theorem alive_next {a b : A} {o : Op} {r : Out} (hl : Legal (alive a) o) (h : Does a o r b) :
    alive b = next (alive a) o := by
  cases h with
  | create => unfold next alive; simp
  | openYes => exact alive_set _ hl
  | openNo => exact alive_set _ hl
  | readClosed => rfl
  | readEnd => exact alive_set _ hl.1
  | readName => exact alive_set _ hl.1
  | readLong => exact alive_set _ hl.1
  | closeOpen => exact alive_set _ hl
  | closeClosed => rfl
  | destroy =>
    unfold next alive
    dsimp only
    rw [List.map_set]
    rfl

theorem step_ok {w : W} {a : A} (o : Op) (r : Rel w a) (hl : Legal (alive a) o) :
    ∃ x w' b, step w o = .ok (x, w') ∧ Does a o x b ∧ Rel w' b := by
  cases o with
  | create =>
    refine ⟨_, _, _, rfl, .create a, ?_⟩
    unfold create
    have e : ∀ {α : Type} (l : List α) (x y : α) (i : Nat), (l ++ [x])[i]? = some y ↔
        l[i]? = some y ∨ (i = l.length ∧ x = y) := by
      intro α l x y i
      rcases Nat.lt_trichotomy i l.length with h | h | h
      · rw [List.getElem?_append_left h]
        exact ⟨Or.inl, fun h' => h'.resolve_right (fun h' => by omega)⟩
      · subst h
        simp
      · rw [List.getElem?_eq_none (by simp; omega), List.getElem?_eq_none (by omega)]
        exact ⟨(fun h => nomatch h), fun h' => h'.elim (fun h => nomatch h) (fun h' => by omega)⟩
    refine ⟨by simp [r.len], fun j => ?_, fun j => ?_, fun j m h => ?_, fun j l m h1 h2 => ?_, fun m es h => ?_⟩
    · rw [e, e, r.dead j, r.len]
      simp
    · rw [e, e, r.shut j, r.len]
      simp
    · rw [e] at h
      have h := h.resolve_right (fun h => nomatch h.2)
      obtain ⟨es, g1, g2⟩ := r.opened j m h
      exact ⟨es, g1, (e _ _ _ _).mpr (Or.inl g2)⟩
    · rw [e] at h1 h2
      exact r.own j l m (h1.resolve_right (fun h => nomatch h.2)) (h2.resolve_right (fun h => nomatch h.2))
    · obtain ⟨j, hj⟩ := r.used m es h
      exact ⟨j, (e _ _ _ _).mpr (Or.inl hj)⟩
  | close i =>
    obtain ⟨x, hx⟩ := alive_live hl
    obtain ⟨w', h1, h2⟩ := close_ok r hx
    refine ⟨⟨x.isSome, []⟩, w', a.set i (some none), ?_, ?_, h2⟩
    · unfold step
      dsimp only
      rw [h1]
      rfl
    · cases x with
      | none =>
        rw [show a.set i (some none) = a from set_same hx]
        exact .closeClosed a i hx
      | some es => exact .closeOpen a i es hx
  | destroy i =>
    obtain ⟨x, hx⟩ := alive_live hl
    obtain ⟨w', h1, h2⟩ := close_ok r hx
    have hia : i < (a.set i (some none)).length := by simp; exact lt_of_get hx
    have hiw : i < w'.objs.length := by rw [h2.len]; exact hia
    have hc : w'.objs[i]? = some (some none) := (h2.shut i).mpr (by rw [List.getElem?_set_self (lt_of_get hx)])
    refine ⟨⟨true, []⟩, { w' with objs := w'.objs.set i none }, a.set i none, ?_, .destroy a i, ?_⟩
    · unfold step
      dsimp only
      unfold destroy
      rw [h1]
      rfl
    · rw [← set_set_same a i (some none) none]
      refine ⟨by simp [h2.len], fun j => ?_, fun j => ?_, fun j m h => ?_, fun j l m h3 h4 => ?_, fun m es h => ?_⟩
      · dsimp only
        rw [get_set hiw, get_set hia]
        split
        · exact ⟨fun _ => rfl, fun _ => rfl⟩
        · exact h2.dead j
      · dsimp only
        rw [get_set hiw, get_set hia]
        split
        · exact ⟨(fun h => nomatch h), (fun h => nomatch h)⟩
        · exact h2.shut j
      · dsimp only at h
        rw [get_set hiw] at h
        rw [get_set hia]
        split at h
        · exact nomatch h
        · next hne => rw [if_neg hne]; exact h2.opened j m h
      · dsimp only at h3 h4
        rw [get_set hiw] at h3 h4
        split at h3
        · exact nomatch h3
        · split at h4
          · exact nomatch h4
          · exact h2.own j l m h3 h4
      · obtain ⟨j, hj⟩ := h2.used m es h
        refine ⟨j, ?_⟩
        dsimp only
        rw [get_set hiw, if_neg]
        · exact hj
        · rintro rfl
          rw [hc] at hj
          cases hj
  | «open» i d =>
    obtain ⟨x, hx⟩ := alive_live hl
    obtain ⟨w', h1, h2⟩ := close_ok r hx
    have hia : i < (a.set i (some none)).length := by simp; exact lt_of_get hx
    have hiw : i < w'.objs.length := by rw [h2.len]; exact hia
    have hc : w'.objs[i]? = some (some none) := (h2.shut i).mpr (by rw [List.getElem?_set_self (lt_of_get hx)])
    cases d with
    | none =>
      refine ⟨⟨false, []⟩, w', a.set i (some none), ?_, .openNo a i, h2⟩
      unfold step
      dsimp only
      unfold openDir
      rw [h1]
      rfl
    | some es =>
      refine ⟨⟨true, []⟩, setObj { w' with streams := w'.streams ++ [some es] } i (some w'.streams.length),
        a.set i (some (some es)), ?_, .openYes a i es, ?_⟩
      · unfold step
        dsimp only
        unfold openDir
        rw [h1]
        rfl
      · rw [← set_set_same a i (some none) (some (some es))]
        unfold setObj
        have hlt : ∀ (j m : Nat), w'.objs[j]? = some (some (some m)) → m < w'.streams.length := by
          intro j m hj
          obtain ⟨es', h3, -⟩ := h2.opened j m hj
          exact lt_of_get h3
        refine ⟨by simp [h2.len], fun j => ?_, fun j => ?_, fun j m h => ?_, fun j l m h3 h4 => ?_, fun m es' h => ?_⟩
        · dsimp only
          rw [get_set hiw, get_set hia]
          split
          · exact ⟨(fun h => nomatch h), (fun h => nomatch h)⟩
          · exact h2.dead j
        · dsimp only
          rw [get_set hiw, get_set hia]
          split
          · exact ⟨(fun h => nomatch h), (fun h => nomatch h)⟩
          · exact h2.shut j
        · dsimp only at h ⊢
          rw [get_set hiw] at h
          rw [get_set hia]
          split at h
          · next hj =>
            cases h
            rw [if_pos hj]
            exact ⟨es, by simp, rfl⟩
          · next hne =>
            rw [if_neg hne, List.getElem?_append_left (hlt j m h)]
            exact h2.opened j m h
        · dsimp only at h3 h4
          rw [get_set hiw] at h3 h4
          split at h3
          · next hj =>
            split at h4
            · next hl => rw [hj, hl]
            · cases h3
              exact absurd (hlt l _ h4) (Nat.lt_irrefl _)
          · split at h4
            · cases h4
              exact absurd (hlt j _ h3) (Nat.lt_irrefl _)
            · exact h2.own j l m h3 h4
        · dsimp only at h ⊢
          rcases Nat.lt_trichotomy m w'.streams.length with hm | hm | hm
          · rw [List.getElem?_append_left hm] at h
            obtain ⟨j, hj⟩ := h2.used m es' h
            refine ⟨j, ?_⟩
            rw [get_set hiw, if_neg]
            · exact hj
            · rintro rfl
              rw [hc] at hj
              cases hj
          · exact ⟨i, by rw [get_set hiw, if_pos rfl, hm]⟩
          · rw [List.getElem?_eq_none (by simp; omega)] at h
            exact nomatch h
  | read i buf size =>
    obtain ⟨hl, hs⟩ := hl
    obtain ⟨x, hx⟩ := alive_live hl
    rcases live r hx with ⟨rfl, h1⟩ | ⟨k, es, rfl, h1, h2⟩
    · refine ⟨⟨false, buf⟩, w, a, ?_, .readClosed a i buf size hx, r⟩
      unfold step
      dsimp only
      unfold read getObj
      rw [h1]
      rfl
    · cases es with
      | nil =>
        obtain ⟨w', h3, h4⟩ := close_ok r hx
        refine ⟨⟨false, buf⟩, w', a.set i (some none), ?_, .readEnd a i buf size hx, h4⟩
        unfold step
        dsimp only
        unfold read
        rw [show getObj w i = .ok (some k) by unfold getObj; rw [h1]]
        rw [ok_bind]
        dsimp only
        rw [show stream w k = .ok [] by unfold stream; rw [h2]]
        rw [ok_bind]
        dsimp only
        rw [h3]
        rfl
      | cons e es =>
        have hia : i < a.length := lt_of_get hx
        have hk : k < w.streams.length := lt_of_get h2
        have hrel : Rel { w with streams := w.streams.set k (some es) } (a.set i (some (some es))) := by
          refine ⟨by simp [r.len], fun j => ?_, fun j => ?_, fun j m h => ?_, fun j l m h3 h4 => r.own j l m h3 h4,
            fun m es' h => ?_⟩
          · dsimp only
            rw [get_set hia]
            split
            · next hj =>
              rw [hj, h1]
              exact ⟨(fun h => nomatch h), (fun h => nomatch h)⟩
            · exact r.dead j
          · dsimp only
            rw [get_set hia]
            split
            · next hj =>
              rw [hj, h1]
              exact ⟨(fun h => nomatch h), (fun h => nomatch h)⟩
            · exact r.shut j
          · dsimp only at h ⊢
            rw [get_set hia, get_set hk]
            by_cases hj : j = i
            · subst hj
              rw [h1] at h
              cases h
              exact ⟨es, by rw [if_pos rfl], by rw [if_pos rfl]⟩
            · rw [if_neg hj, if_neg (fun e : m = k => hj (r.own j i k (e ▸ h) h1))]
              exact r.opened j m h
          · dsimp only at h
            rw [get_set hk] at h
            split at h
            · next hm => exact ⟨i, by rw [hm]; exact h1⟩
            · exact r.used m es' h
        by_cases hz : e.length + 1 > size
        · refine ⟨⟨false, buf⟩, _, _, ?_, .readLong a i buf size e es hx (by omega), hrel⟩
          unfold step
          dsimp only
          unfold read
          rw [show getObj w i = .ok (some k) by unfold getObj; rw [h1]]
          rw [ok_bind]
          dsimp only
          rw [show stream w k = .ok (e :: es) by unfold stream; rw [h2]]
          rw [ok_bind]
          dsimp only
          rw [if_pos hz]
          rfl
        · refine ⟨⟨true, e ++ 0 :: buf.drop (e.length + 1)⟩, _, _, ?_, .readName a i buf _ size e es hx (by omega) rfl, hrel⟩
          unfold step
          dsimp only
          unfold read
          rw [show getObj w i = .ok (some k) by unfold getObj; rw [h1]]
          rw [ok_bind]
          dsimp only
          rw [show stream w k = .ok (e :: es) by unfold stream; rw [h2]]
          rw [ok_bind]
          dsimp only
          rw [if_neg hz, memcpyTo_ok _ _ _ _ (by simp) (by omega), ok_bind, ok_bind,
            show e.length + 1 = (e ++ [0]).length by simp, List.take_length]
          simp

theorem run_ok : ∀ (os : List Op) {w : W} {a : A}, Rel w a → LegalAll (alive a) os →
    ∃ xs w' b, run w os = .ok (xs, w') ∧ DoesAll a os xs b ∧ Rel w' b
  | [], w, a, r, _ => ⟨[], w, a, rfl, .nil a, r⟩
  | o :: os, w, a, r, hl => by
    obtain ⟨h, hs⟩ := hl
    obtain ⟨x, w1, b, h1, h2, h3⟩ := step_ok o r h
    obtain ⟨xs, w2, c, h4, h5, h6⟩ := run_ok os h3 (by rw [alive_next h h2]; exact hs)
    refine ⟨x :: xs, w2, c, ?_, .cons h2 h5, h6⟩
    unfold run
    rw [h1, ok_bind]
    dsimp only
    rw [h4]
    rfl

theorem rel_empty : Rel ⟨[], []⟩ [] :=
  ⟨rfl, by simp, by simp, by simp, by simp, by simp⟩

/-- C76: every history of any number of `Dir` objects does what `Spec.Does` says, never uses a closed stream and
never writes outside the buffer; afterwards each open object has a stream of its own and no other stream is
open. -/
theorem listing (os : List Op) (hl : LegalAll [] os) :
    ∃ xs w b, run ⟨[], []⟩ os = .ok (xs, w) ∧ DoesAll [] os xs b ∧
      (∀ (h : Nat) (es : List Name), w.streams[h]? = some (some es) → ∃ i : Nat, b[i]? = some (some (some es)) ∧
        w.objs[i]? = some (some (some h))) ∧
      ∀ (i : Nat) (es : List Name), b[i]? = some (some (some es)) → ∃ h : Nat, w.objs[i]? = some (some (some h)) ∧
        ∀ j, w.objs[j]? = some (some (some h)) → j = i := by
  obtain ⟨xs, w, b, h1, h2, h3⟩ := run_ok os rel_empty hl
  refine ⟨xs, w, b, h1, h2, fun h es hs => ?_, fun i es hi => ?_⟩
  · obtain ⟨i, hi⟩ := h3.used h es hs
    obtain ⟨es', g1, g2⟩ := h3.opened i h hi
    rw [hs] at g1
    cases g1
    exact ⟨i, g2, hi⟩
  · rcases live h3 hi with ⟨h, -⟩ | ⟨k, es', -, g1, -⟩
    · exact nomatch h
    · exact ⟨k, g1, fun j hj => h3.own j i k hj g1⟩

/-- C76: when all objects are closed or gone, so are all streams. -/
theorem nothing_left (os : List Op) (hl : LegalAll [] os) :
    ∃ xs w b, run ⟨[], []⟩ os = .ok (xs, w) ∧ DoesAll [] os xs b ∧
      ((∀ (i : Nat) (es : List Name), b[i]? ≠ some (some (some es))) → ∀ (h : Nat) (es : List Name), w.streams[h]? ≠ some (some es)) := by
  obtain ⟨xs, w, b, h1, h2, h3, -⟩ := listing os hl
  refine ⟨xs, w, b, h1, h2, fun hb h es hs => ?_⟩
  obtain ⟨i, hi, -⟩ := h3 h es hs
  exact hb i es hi

/-! ## The loop -/

/-- `Read` of an object with names still to come. -/
theorem read_name {w : W} {a : A} {i : Nat} {e : Name} {es : List Name} (r : Rel w a)
    (h : a[i]? = some (some (some (e :: es)))) (buf : List Nat) (size : Nat) (hs : size ≤ buf.length)
    (he : e.length < size) :
    ∃ w' b, read w i buf size = .ok ((true, e ++ 0 :: buf.drop (e.length + 1)), w') ∧ Rel w' b ∧
      b[i]? = some (some (some es)) := by
  obtain ⟨x, w', b, h1, h2, h3⟩ := step_ok (.read i buf size) r ⟨live_alive h, hs⟩
  have hi : i < a.length := lt_of_get h
  cases hr : read w i buf size with
  | error u => unfold step at h1; dsimp only at h1; rw [hr] at h1; cases h1
  | ok y =>
    obtain ⟨⟨q, buf'⟩, w2⟩ := y
    unfold step at h1
    dsimp only at h1
    rw [hr] at h1
    cases h1
    generalize hx : (⟨q, buf'⟩ : Out) = x at h2
    cases h2 with
    | readClosed _ _ _ g => rw [h] at g; cases g
    | readEnd _ _ _ g => rw [h] at g; cases g
    | readLong _ _ _ e' es' g g2 => rw [h] at g; cases g; omega
    | readName _ _ b' _ e' es' g g2 g3 =>
      rw [h] at g
      cases g
      cases hx
      unfold Holds at g3
      rw [g3]
      exact ⟨w2, _, rfl, h3, List.getElem?_set_self hi⟩

theorem read_end {w : W} {a : A} {i : Nat} (r : Rel w a) (h : a[i]? = some (some (some []))) (buf : List Nat)
    (size : Nat) (hs : size ≤ buf.length) :
    ∃ w' b, read w i buf size = .ok ((false, buf), w') ∧ Rel w' b ∧ b[i]? = some (some none) := by
  obtain ⟨x, w', b, h1, h2, h3⟩ := step_ok (.read i buf size) r ⟨live_alive h, hs⟩
  have hi : i < a.length := lt_of_get h
  cases hr : read w i buf size with
  | error u => unfold step at h1; dsimp only at h1; rw [hr] at h1; cases h1
  | ok y =>
    obtain ⟨⟨q, buf'⟩, w2⟩ := y
    unfold step at h1
    dsimp only at h1
    rw [hr] at h1
    cases h1
    generalize hx : (⟨q, buf'⟩ : Out) = x at h2
    cases h2 with
    | readClosed _ _ _ g => rw [h] at g; cases g
    | readEnd _ _ _ g => cases hx; exact ⟨w2, _, rfl, h3, List.getElem?_set_self hi⟩
    | readLong _ _ _ e' es' g g2 => rw [h] at g; cases g
    | readName _ _ b' _ e' es' g g2 g3 => rw [h] at g; cases g

theorem read_long {w : W} {a : A} {i : Nat} {e : Name} {es : List Name} (r : Rel w a)
    (h : a[i]? = some (some (some (e :: es)))) (buf : List Nat) (size : Nat) (hs : size ≤ buf.length)
    (he : size ≤ e.length) :
    ∃ w' b, read w i buf size = .ok ((false, buf), w') ∧ Rel w' b ∧ b[i]? = some (some (some es)) := by
  obtain ⟨x, w', b, h1, h2, h3⟩ := step_ok (.read i buf size) r ⟨live_alive h, hs⟩
  have hi : i < a.length := lt_of_get h
  cases hr : read w i buf size with
  | error u => unfold step at h1; dsimp only at h1; rw [hr] at h1; cases h1
  | ok y =>
    obtain ⟨⟨q, buf'⟩, w2⟩ := y
    unfold step at h1
    dsimp only at h1
    rw [hr] at h1
    cases h1
    generalize hx : (⟨q, buf'⟩ : Out) = x at h2
    cases h2 with
    | readClosed _ _ _ g => rw [h] at g; cases g
    | readEnd _ _ _ g => rw [h] at g; cases g
    | readLong _ _ _ e' es' g g2 =>
      rw [h] at g
      cases g
      cases hx
      exact ⟨w2, _, rfl, h3, List.getElem?_set_self hi⟩
    | readName _ _ b' _ e' es' g g2 g3 => rw [h] at g; cases g; omega

/-- The buffers hold these names, one each, in this order. -/
def Names : List (List Nat) → List Name → Prop
  | [], [] => True
  | b :: bs, e :: es => (∃ tl, b = e ++ 0 :: tl) ∧ Names bs es
  | _, _ => False

theorem list_ok : ∀ (es : List Name) {w : W} {a : A} {i : Nat} (buf : List Nat) (size n : Nat), Rel w a →
    a[i]? = some (some (some es)) → size ≤ buf.length → (∀ e ∈ es, e.length < size) → es.length < n →
    ∃ xs w' b, list w i buf size n = .ok (xs, w') ∧ Names xs es ∧ Rel w' b ∧ b[i]? = some (some none)
  | [], w, a, i, buf, size, 0, _, _, _, _, hn => nomatch hn
  | [], w, a, i, buf, size, n + 1, r, h, hs, he, hn => by
    obtain ⟨w', b, h1, h2, h3⟩ := read_end r h buf size hs
    refine ⟨[], w', b, ?_, trivial, h2, h3⟩
    unfold list
    rw [h1]
    rfl
  | e :: es, w, a, i, buf, size, 0, _, _, _, _, hn => nomatch hn
  | e :: es, w, a, i, buf, size, n + 1, r, h, hs, he, hn => by
    have hee := he e List.mem_cons_self
    obtain ⟨w', b, h1, h2, h3⟩ := read_name r h buf size hs hee
    obtain ⟨xs, w2, c, g1, g2, g3, g4⟩ := list_ok es (e ++ 0 :: buf.drop (e.length + 1)) size n h2 h3
      (by simp; omega) (fun x hx => he x (List.mem_cons_of_mem _ hx)) (by simpa using hn)
    refine ⟨(e ++ 0 :: buf.drop (e.length + 1)) :: xs, w2, c, ?_, ⟨⟨_, rfl⟩, g2⟩, g3, g4⟩
    unfold list
    rw [h1, ok_bind]
    dsimp only
    rw [if_pos rfl, g1]
    rfl

/-- C76 (partial): after any history, the loop over a directory all of whose names fit gives each name once, in the
order of the system, and leaves the object closed.  Missing: longer names, see `list_cut`. -/
theorem list_all_partial (os : List Op) (hl : LegalAll [] os) (i : Nat) (es : List Name) (buf : List Nat) (size : Nat)
    (hs : size ≤ buf.length) (he : ∀ e ∈ es, e.length < size) :
    ∃ ys w b, run ⟨[], []⟩ os = .ok (ys, w) ∧ DoesAll [] os ys b ∧ (b[i]? = some (some (some es)) →
      ∃ xs w', list w i buf size (es.length + 1) = .ok (xs, w') ∧ Names xs es ∧ w'.objs[i]? = some (some none)) := by
  obtain ⟨ys, w, b, h1, h2, h3⟩ := run_ok os rel_empty hl
  refine ⟨ys, w, b, h1, h2, fun hi => ?_⟩
  obtain ⟨xs, w', c, g1, g2, g3, g4⟩ := list_ok es buf size _ h3 hi hs he (Nat.lt_succ_self _)
  exact ⟨xs, w', g1, g2, (g3.shut i).mpr g4⟩

theorem list_cut_ok (e : Name) (rest : List Name) : ∀ (es : List Name) {w : W} {a : A} {i : Nat} (buf : List Nat)
    (size n : Nat), Rel w a → a[i]? = some (some (some (es ++ e :: rest))) → size ≤ buf.length →
    (∀ x ∈ es, x.length < size) → size ≤ e.length → es.length < n →
    ∃ xs w' b, list w i buf size n = .ok (xs, w') ∧ Names xs es ∧ Rel w' b ∧ b[i]? = some (some (some rest))
  | [], w, a, i, buf, size, 0, _, _, _, _, _, hn => nomatch hn
  | [], w, a, i, buf, size, n + 1, r, h, hs, he, hc, hn => by
    obtain ⟨w', b, h1, h2, h3⟩ := read_long r h buf size hs hc
    refine ⟨[], w', b, ?_, trivial, h2, h3⟩
    unfold list
    rw [h1]
    rfl
  | x :: es, w, a, i, buf, size, 0, _, _, _, _, _, hn => nomatch hn
  | x :: es, w, a, i, buf, size, n + 1, r, h, hs, he, hc, hn => by
    have hee := he x List.mem_cons_self
    obtain ⟨w', b, h1, h2, h3⟩ := read_name r h buf size hs hee
    obtain ⟨xs, w2, c, g1, g2, g3, g4⟩ := list_cut_ok e rest es (x ++ 0 :: buf.drop (x.length + 1)) size n h2 h3
      (by simp; omega) (fun y hy => he y (List.mem_cons_of_mem _ hy)) hc (by simpa using hn)
    refine ⟨(x ++ 0 :: buf.drop (x.length + 1)) :: xs, w2, c, ?_, ⟨⟨_, rfl⟩, g2⟩, g3, g4⟩
    unfold list
    rw [h1, ok_bind]
    dsimp only
    rw [if_pos rfl, g1]
    rfl

/-- C76, negation: the loop ends before the first name that does not fit, as if the directory ended there; the names
behind it are missing, and the object stays open. -/
theorem list_cut (e : Name) (rest es : List Name) (buf : List Nat) (size : Nat) (hs : size ≤ buf.length)
    (he : ∀ x ∈ es, x.length < size) (hc : size ≤ e.length) :
    ∃ w0 xs w, run ⟨[], []⟩ [.create, .open 0 (some (es ++ e :: rest))] = .ok ([⟨true, []⟩, ⟨true, []⟩], w0) ∧
      list w0 0 buf size (es.length + 1) = .ok (xs, w) ∧ Names xs es ∧
      ∃ h : Nat, w.objs[0]? = some (some (some h)) ∧ w.streams[h]? = some (some rest) := by
  have r0 : Rel ⟨[some (es ++ e :: rest)], [some (some 0)]⟩ [some (some (es ++ e :: rest))] := by
    refine ⟨rfl, fun j => ?_, fun j => ?_, fun j m h => ?_, fun j l m h1 h2 => ?_, fun m es' h => ?_⟩
    · cases j <;> simp
    · cases j <;> simp
    · cases j with
      | zero => cases h; exact ⟨_, rfl, rfl⟩
      | succ j => exact nomatch h
    · cases j with
      | zero =>
        cases l with
        | zero => rfl
        | succ l => exact nomatch h2
      | succ j => exact nomatch h1
    · cases m with
      | zero => exact ⟨0, rfl⟩
      | succ m => exact nomatch h
  obtain ⟨xs, w, b, h1, h2, h3, h4⟩ := list_cut_ok (i := 0) e rest es buf size (es.length + 1) r0 rfl hs he hc (Nat.lt_succ_self _)
  refine ⟨_, xs, w, rfl, h1, h2, ?_⟩
  rcases live h3 h4 with ⟨h, -⟩ | ⟨k, es', h, g1, g2⟩
  · exact nomatch h
  · cases h
    exact ⟨k, g1, g2⟩

/-! ## The cases are not empty -/

/-- Two objects over directories with "." and "a", "bc"; one is read to the end, one is opened anew while open. -/
def sample : List Op :=
  [.create, .open 0 (some [[46], [97]]), .create, .open 1 (some [[98, 99]]), .read 0 [1, 2, 3] 3, .open 1 none,
    .read 0 [1, 2, 3] 3, .read 1 [] 0, .open 1 (some [[98, 99]]), .read 0 [1, 2, 3] 3, .read 1 [1, 2, 3] 2, .close 0,
    .destroy 1]

example : LegalAll [] sample := by simp [sample, LegalAll, Legal, next]

example : (run ⟨[], []⟩ sample).map (fun x => (x.1.map (fun o => (o.result, o.buf)), x.2.streams)) =
    .ok ([(true, []), (true, []), (true, []), (true, []), (true, [46, 0, 3]), (false, []), (true, [97, 0, 3]),
      (false, []), (true, []), (false, [1, 2, 3]), (false, [1, 2, 3]), (false, []), (true, [])],
      [none, none, none]) := rfl

example : (run ⟨[], []⟩ [.create, .open 0 (some [[46], [97]])]).bind (fun x => (list x.2 0 [1, 2, 3] 3 3).map Prod.fst) =
    .ok [[46, 0, 3], [97, 0, 3]] := rfl

end Verif.DirList
