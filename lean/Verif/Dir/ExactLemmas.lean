import Verif.Dir.TreeLemmas

/-!
# Exactly what a recursive removal does in a tree
-/

namespace Verif.Dir
open Spec Verif.Path Verif.Path.Spec
open Verif.Utf8.Spec (Valid Combining GoodText text enc enc8)

/-! ## Names and paths -/

theorem enc8_high {c : Nat} (h : ¬ c < 0x80) : ∀ b ∈ enc8 c, 0x80 ≤ b := by
  intro b hb
  unfold enc8 at hb
  rw [if_neg h] at hb
  split at hb
  · simp only [List.mem_cons, List.not_mem_nil, or_false] at hb; omega
  · split at hb
    · simp only [List.mem_cons, List.not_mem_nil, or_false] at hb; omega
    · simp only [List.mem_cons, List.not_mem_nil, or_false] at hb; omega

theorem text_cons (c : Nat) (cs : List Nat) : text 1 (c :: cs) = enc8 c ++ text 1 cs := rfl

theorem text_append (a b : List Nat) : text 1 (a ++ b) = text 1 a ++ text 1 b := List.flatMap_append

theorem text_split : ∀ (cps A B : List Nat), text 1 cps = A ++ 47 :: B → ∃ ca cb, cps = ca ++ 47 :: cb ∧ A = text 1 ca ∧ B = text 1 cb
  | [], A, B, h => by
    have : (0 : Nat) = (A ++ 47 :: B).length := by rw [← h]; rfl
    simp at this
  | c :: cs, A, B, h => by
    rw [text_cons] at h
    rcases List.append_eq_append_iff.1 h with ⟨a', h1, h2⟩ | ⟨a', h1, h2⟩
    · obtain ⟨ca, cb, e1, e2, e3⟩ := text_split cs a' B h2
      exact ⟨c :: ca, cb, by rw [e1]; rfl, by rw [h1, e2, text_cons], e3⟩
    · cases a' with
      | nil =>
        obtain ⟨ca, cb, e1, e2, e3⟩ := text_split cs [] B (by rw [List.nil_append]; rw [List.nil_append] at h2; exact h2.symm)
        refine ⟨c :: ca, cb, by rw [e1]; rfl, ?_, e3⟩
        rw [text_cons, ← e2, h1]
        simp
      | cons a a' =>
        rw [List.cons_append] at h2
        injection h2 with h3 h4
        by_cases hc : c < 0x80
        · have he : enc8 c = [c] := by unfold enc8; rw [if_pos hc]
          rw [he] at h1
          cases A with
          | nil =>
            injection h1 with h5 h6
            subst h6
            exact ⟨[], cs, by rw [h5, ← h3]; rfl, rfl, h4⟩
          | cons x A =>
            injection h1 with h5 h6
            exact absurd h6.symm (by simp)
        · exfalso
          have := enc8_high hc a (by rw [h1]; simp)
          omega

theorem join_texts : ∀ (cs : List (List Nat)) (cps : List Nat), (∀ c ∈ cps, Valid c) → text 1 cps = join cs →
    ∀ g ∈ cs, ∃ cps, (∀ c ∈ cps, Valid c) ∧ g = text 1 cps
  | [], _, _, _, g, hg => nomatch hg
  | c :: cs, cps, hv, h, g, hg => by
    rw [join_cons] at h
    obtain ⟨ca, cb, e1, e2, e3⟩ := text_split cps [] (c ++ join cs) (by rw [h]; simp)
    have hvb : ∀ x ∈ cb, Valid x := fun x hx => hv x (by rw [e1]; simp [hx])
    cases cs with
    | nil =>
      simp only [List.mem_singleton] at hg
      subst hg
      exact ⟨cb, hvb, by rw [← e3]; simp [join]⟩
    | cons d cs =>
      rw [join_cons] at e3
      obtain ⟨ca', cb', f1, f2, f3⟩ := text_split cb c (d ++ join cs) (by rw [← e3])
      rcases List.mem_cons.1 hg with rfl | hg
      · exact ⟨ca', fun x hx => hvb x (by rw [f1]; simp [hx]), f2⟩
      · refine join_texts (d :: cs) (47 :: cb') ?_ ?_ g hg
        · intro x hx
          exact hvb x (by rw [f1]; exact List.mem_append_right _ hx)
        · rw [text_cons, ← f3, join_cons]
          have : enc8 47 = [47] := by decide
          rw [this]; simp

theorem texts_join : ∀ (cs : List (List Nat)), (∀ g ∈ cs, ∃ cps, (∀ c ∈ cps, Valid c) ∧ g = text 1 cps) →
    ∃ cps, GoodText cps ∧ join cs = text 1 cps
  | [], _ => ⟨[], ⟨(fun _ h => nomatch h), (fun _ h => nomatch h)⟩, rfl⟩
  | c :: cs, h => by
    obtain ⟨a, ha, hc⟩ := h c List.mem_cons_self
    obtain ⟨b, hb, hj⟩ := texts_join cs (fun g hg => h g (List.mem_cons_of_mem _ hg))
    refine ⟨47 :: (a ++ b), ⟨?_, ?_⟩, ?_⟩
    · intro x hx
      rcases List.mem_cons.1 hx with rfl | hx
      · decide
      · rcases List.mem_append.1 hx with hx | hx
        · exact ha x hx
        · exact hb.1 x hx
    · intro x hx
      injection hx with hx
      subst hx
      decide
    · have : enc8 47 = [47] := by decide
      rw [join_cons, text_cons, text_append, this, hc, hj]
      simp

theorem join_accepted (sgn : Bool) {cs : List (List Nat)} (hne : cs ≠ []) (hl : (join cs).length < 8192) :
    Accepted sgn 8192 (join cs) ↔ ∀ g ∈ cs, Opens sgn g := by
  have hmem : ∀ c, c ∈ join cs ↔ ∃ g ∈ cs, c = 47 ∨ c ∈ g := by
    intro c
    unfold join
    rw [List.mem_flatMap]
    simp
  constructor
  · rintro ⟨_, _, ⟨cps, h1, h2⟩, h3, h4⟩ g hg
    exact ⟨join_texts cs cps h1.1 h2.symm g hg, fun c hc => h3 c ((hmem c).2 ⟨g, hg, .inr hc⟩),
      fun hs c hc => h4 hs c ((hmem c).2 ⟨g, hg, .inr hc⟩)⟩
  · intro h
    refine ⟨?_, by omega, ?_, ?_, ?_⟩
    · intro e
      have := join_head_slash hne
      rw [e] at this
      cases this
    · obtain ⟨cps, h1, h2⟩ := texts_join cs (fun g hg => (h g hg).1)
      exact ⟨cps, h1, h2⟩
    · intro c hc
      obtain ⟨g, hg, rfl | h1⟩ := (hmem c).1 hc
      · decide
      · exact (h g hg).2.1 c h1
    · intro hs c hc
      obtain ⟨g, hg, rfl | h1⟩ := (hmem c).1 hc
      · decide
      · exact (h g hg).2.2 hs c h1

theorem join_real {cs : List (List Nat)} (h : ∀ g ∈ cs, Real g) : slashed (join cs) = join cs := by
  unfold slashed
  have : (join cs).map (fun c => if c = 92 then 47 else c) = (join cs).map id := by
    apply List.map_congr_left
    intro c hc
    obtain ⟨g, hg, h1⟩ := List.mem_flatMap.1 hc
    rcases List.mem_cons.1 h1 with rfl | h1
    · rfl
    · refine if_neg ?_
      rintro rfl
      exact (h g hg).2.2.2.2.2 h1
  rw [this, List.map_id]

theorem Spec.Real.clean {n : List Nat} (h : Real n) : n ≠ [] ∧ 47 ∉ n := ⟨h.1, h.2.2.2.2.1⟩
theorem Spec.Real.plain {n : List Nat} (h : Real n) : Plain n := ⟨h.2.1, h.2.2.1⟩

theorem stack_real {cs : List (List Nat)} (bs : List Nat) (hne : cs ≠ []) (h : ∀ g ∈ cs, Real g) : stack bs (join cs) = cs := by
  unfold stack
  rw [if_pos (join_head_slash hne), comps_of_join (fun g hg => (h g hg).clean), walk_plain cs [] (fun g hg => (h g hg).plain)]
  rfl

open Classical in
/-- A path of real names is opened as it is, if every name is accepted. -/
theorem openDir_real (cwd : List Nat) (ls : List (List Nat) → List (List Nat)) (E : Env) (hE : E.Good) (hc0 : 0 ∉ cwd)
    (hcwd : cwd.head? = some 47) (t : Node) (cs : List (List Nat)) (tl : List Nat) (hne : cs ≠ []) (h : ∀ g ∈ cs, Real g)
    (hl : cwd.length + (join cs).length ≤ 8189) (es : List (List Nat × Node)) (ht : lookup t cs = some (.dir es)) :
    openDir (treeSys cwd ls) E t (join cs ++ 0 :: tl) = .ok (t, if ∀ g ∈ cs, Opens E.sgn g then
      some (ls (dot :: dotdot :: es.map (·.1))) else none) := by
  have hzero : 0 ∉ join cs := join_zero (fun g hg => (h g hg).2.2.2.1)
  have hsl := join_real h
  obtain ⟨ok, b, g1, g2, g3, g4, g5⟩ := resolvePath_ok (treeSys cwd ls) E hE (fun s p e => by cases e; exact hc0) t (join cs) tl hzero
  have hst := stack_real cwd hne h
  have hacc := join_accepted E.sgn hne (show (join cs).length < 8192 by omega)
  have hdot : ∀ n, n = dot ∨ n = dotdot → n ∉ cs := by
    intro n hn hm
    rcases hn with rfl | rfl
    · exact (h _ hm).2.1 rfl
    · exact (h _ hm).2.2.1 rfl
  unfold openDir
  by_cases ho : ∀ g ∈ cs, Opens E.sgn g
  · rw [if_pos ho]
    have hok : ok = true := by
      apply g4 cwd rfl hcwd (hacc.2 ho) hl
      · rw [hsl, hst]; exact fun hm => hdot dot (.inl rfl) (List.dropLast_subset _ hm)
      · rw [hsl, hst]; exact fun hm => hdot dotdot (.inr rfl) (List.dropLast_subset _ hm)
    subst hok
    obtain ⟨bs, tlb, e1, _, e2, e3⟩ := g3 rfl
    cases e1
    rw [hsl, hst] at e2 e3
    rw [g1, ok_bind]
    dsimp only
    rw [if_neg (by simp), e2, cstr_ok _ _ e3, ok_bind]
    have : comps (join cs) = cs := comps_of_join (fun g hg => (h g hg).clean)
    simp only [treeSys, this, ht]
  · rw [if_neg ho]
    have hok : ok = false := by
      cases ok with
      | false => rfl
      | true => exact absurd (hacc.1 (g5 rfl)) ho
    subst hok
    rw [g1, ok_bind]
    rfl

/-! ## What is left of an entry -/

open Classical in
/-- What is left of one entry. -/
noncomputable def left (sgn : Bool) (n : List Nat) : Node → Option Node
  | .file => none
  | .link => none
  | .dir ds => match (if Opens sgn n then remains sgn ds else ds) with
    | [] => none
    | d :: r => some (.dir (d :: r))

/-- What is left of an entry, with its name. -/
noncomputable def left1 (sgn : Bool) (p : List Nat × Node) : Option (List Nat × Node) := (left sgn p.1 p.2).map (fun y => (p.1, y))

open Classical in
theorem remains_eq (sgn : Bool) : ∀ es, remains sgn es = es.filterMap (left1 sgn)
  | [] => by rw [remains]; rfl
  | (n, .file) :: es => by rw [remains, remains_eq sgn es]; rfl
  | (n, .link) :: es => by rw [remains, remains_eq sgn es]; rfl
  | (n, .dir ds) :: es => by
    have h1 : left1 sgn (n, .dir ds) = (left sgn n (.dir ds)).map (fun y => (n, y)) := rfl
    rw [remains, remains_eq sgn es, List.filterMap_cons, h1, left]
    generalize (if Opens sgn n then remains sgn ds else ds) = r
    cases r <;> rfl

/-- The entries after one of them was treated. -/
noncomputable def step (sgn : Bool) (es : List (List Nat × Node)) (e : List Nat) : List (List Nat × Node) :=
  match find es e with
  | none => es
  | some x => match left sgn e x with
    | none => drop es e
    | some y => upd es e (fun _ => y)

theorem find_none {es : List (List Nat × Node)} {c : List Nat} (h : c ∉ es.map (·.1)) : find es c = none := by
  induction es with
  | nil => rfl
  | cons e es ih =>
    obtain ⟨n, x⟩ := e
    simp only [List.map_cons, List.mem_cons, not_or] at h
    rw [find, if_neg (fun e => h.1 e.symm), ih h.2]

theorem drop_absent {es : List (List Nat × Node)} {c : List Nat} (h : c ∉ es.map (·.1)) : drop es c = es := by
  unfold drop
  rw [List.filter_eq_self]
  intro e he
  simp only [ne_eq, decide_not, Bool.not_eq_eq_eq_not, Bool.not_true, decide_eq_false_iff_not]
  rintro rfl
  exact h (List.mem_map.2 ⟨e, he, rfl⟩)

open Classical in
/-- One entry treated, the others as they were. -/
noncomputable def at1 (sgn : Bool) (N : List (List Nat)) (p : List Nat × Node) : Option (List Nat × Node) :=
  if p.1 ∈ N then left1 sgn p else some p

theorem at1_absent (sgn : Bool) (N : List (List Nat)) : ∀ es : List (List Nat × Node), (∀ e ∈ N, e ∉ es.map (·.1)) → es.filterMap (at1 sgn N) = es
  | [], _ => rfl
  | (n, x) :: es, h => by
    have h1 : n ∉ N := fun hm => h n hm (by simp)
    rw [List.filterMap_cons]
    unfold at1
    rw [if_neg h1]
    dsimp only
    congr 1
    exact at1_absent sgn N es (fun e he hm => h e he (List.mem_cons_of_mem _ hm))

theorem step_eq (sgn : Bool) (e : List Nat) : ∀ es : List (List Nat × Node), (es.map (·.1)).Nodup → step sgn es e = es.filterMap (at1 sgn [e])
  | [], _ => rfl
  | (n, x) :: es, h => by
    rw [List.map_cons, List.nodup_cons] at h
    have ih := step_eq sgn e es h.2
    unfold step at ih ⊢
    rw [List.filterMap_cons]
    by_cases hn : n = e
    · subst hn
      have hab := at1_absent sgn [n] es (fun c hc => by rw [List.mem_singleton.1 hc]; exact h.1)
      have h1 : at1 sgn [n] (n, x) = (left sgn n x).map (fun y => (n, y)) := by unfold at1; rw [if_pos (by simp)]; rfl
      rw [find, if_pos rfl, h1]
      dsimp only
      cases left sgn n x with
      | none =>
        dsimp only [Option.map_none]
        rw [hab]
        unfold drop
        rw [List.filter_cons_of_neg (by simp)]
        exact drop_absent h.1
      | some y =>
        dsimp only [Option.map_some]
        rw [hab, upd, if_pos rfl]
    · rw [find, if_neg hn]
      have h1 : at1 sgn [e] (n, x) = some (n, x) := by unfold at1; rw [if_neg (by simpa using hn)]
      rw [h1, ← ih]
      dsimp only
      cases find es e with
      | none => rfl
      | some z =>
        dsimp only
        cases left sgn e z with
        | none => unfold drop; rw [List.filter_cons_of_pos (by simpa using hn)]
        | some y => dsimp only; rw [upd, if_neg hn]

theorem left1_name {sgn : Bool} {p q : List Nat × Node} (h : left1 sgn p = some q) : q.1 = p.1 := by
  unfold left1 at h
  cases hl : left sgn p.1 p.2 with
  | none => rw [hl] at h; cases h
  | some y => rw [hl] at h; cases h; rfl

theorem at1_name {sgn : Bool} {N : List (List Nat)} {p q : List Nat × Node} (h : at1 sgn N p = some q) : q.1 = p.1 := by
  unfold at1 at h
  split at h
  · exact left1_name h
  · cases h; rfl

theorem names_at1 (sgn : Bool) (N : List (List Nat)) : ∀ es : List (List Nat × Node), ((es.filterMap (at1 sgn N)).map (·.1)).Sublist (es.map (·.1))
  | [] => .slnil
  | p :: es => by
    rw [List.filterMap_cons]
    cases h : at1 sgn N p with
    | none => exact (names_at1 sgn N es).cons _
    | some q =>
      dsimp only
      rw [List.map_cons, List.map_cons, at1_name h]
      exact (names_at1 sgn N es).cons_cons _

theorem steps_eq (sgn : Bool) : ∀ (ns : List (List Nat)) (es : List (List Nat × Node)), ns.Nodup → (es.map (·.1)).Nodup →
    ns.foldl (step sgn) es = es.filterMap (at1 sgn ns)
  | [], es, _, _ => (at1_absent sgn [] es (fun _ h => nomatch h)).symm
  | e :: ns, es, hns, hes => by
    rw [List.nodup_cons] at hns
    rw [List.foldl_cons, step_eq sgn e es hes, steps_eq sgn ns _ hns.2 ((names_at1 sgn [e] es).nodup hes), List.filterMap_filterMap]
    congr 1
    funext p
    by_cases h : p.1 = e
    · have h1 : at1 sgn [e] p = left1 sgn p := by unfold at1; rw [if_pos (by simpa using h)]
      have h2 : at1 sgn (e :: ns) p = left1 sgn p := by unfold at1; rw [if_pos (by simp [h])]
      rw [h1, h2]
      cases hl : left1 sgn p with
      | none => rfl
      | some q =>
        show at1 sgn ns q = _
        unfold at1
        rw [if_neg (by rw [left1_name hl, h]; exact hns.1)]
    · have h1 : at1 sgn [e] p = some p := by unfold at1; rw [if_neg (by simpa using h)]
      rw [h1]
      show at1 sgn ns p = _
      unfold at1
      simp [h]

theorem steps_all (sgn : Bool) (ns : List (List Nat)) (es : List (List Nat × Node)) (hns : ns.Nodup) (hes : (es.map (·.1)).Nodup)
    (h : ∀ n ∈ es.map (·.1), n ∈ ns) : ns.foldl (step sgn) es = remains sgn es := by
  rw [steps_eq sgn ns es hns hes, remains_eq]
  apply List.filterMap_congr
  intro p hp
  unfold at1
  rw [if_pos (h p.1 (List.mem_map.2 ⟨p, hp, rfl⟩))]

theorem find_step {sgn : Bool} {es : List (List Nat × Node)} {e c : List Nat} (h : c ≠ e) : find (step sgn es e) c = find es c := by
  unfold step
  split
  · rfl
  · split
    · rw [find_drop, if_neg h]
    · rw [find_upd, if_neg h]

/-! ## The removal -/

theorem Spec.Proper.child {len : Nat} {es : List (List Nat × Node)} {e : List Nat} {x : Node} (h : Proper len (.dir es)) (he : find es e = some x) :
    Proper (len + (1 + e.length)) x := by
  have hlk : ∀ p, lookup (.dir es) (e :: p) = lookup x p := by intro p; rw [lookup, he]
  constructor
  · intro p y hp
    have h2 := h.1 (e :: p) y (by rw [hlk]; exact hp)
    rw [path_eq, join_cons] at h2
    rw [path_eq]
    simp at h2
    omega
  · intro p y hp
    exact h.2 (e :: p) y (by rw [hlk]; exact hp)

open Classical in
/-- What the recursive call does. -/
def Exact (sgn : Bool) (cwd : List Nat) (rec : Node → List Nat → Nat → CRes (Node × List Nat)) (bound : Nat) : Prop :=
  ∀ t cs es tl, lookup t cs = some (.dir es) → cs ≠ [] → (∀ g ∈ cs, Real g) →
    Proper (cwd.length + (join cs).length) (.dir es) → bound ≤ (join cs).length → (join cs ++ 0 :: tl).length = 8192 →
    ∃ tl', rec t (join cs ++ 0 :: tl) (join cs).length =
        .ok (put t cs (.dir (if ∀ g ∈ cs, Opens sgn g then remains sgn es else es)), join cs ++ 0 :: tl') ∧
      (join cs ++ 0 :: tl').length = 8192

open Classical in
theorem entries_exact (sgn : Bool) (cwd : List Nat) (ls : List (List Nat) → List (List Nat)) (hcwd : cwd.head? = some 47)
    (rec : Node → List Nat → Nat → CRes (Node × List Nat)) (bound : Nat) (hrec : Exact sgn cwd rec bound) (cs : List (List Nat))
    (hne : cs ≠ []) (hcs : ∀ g ∈ cs, Real g) (hop : ∀ g ∈ cs, Opens sgn g) (hb : bound ≤ (join cs).length + 1)
    (hroot : cwd.length + (join cs).length ≤ 8189) :
    ∀ (ns : List (List Nat)) (t : Node) (es : List (List Nat × Node)) (tl : List Nat), lookup t cs = some (.dir es) → ns.Nodup →
      (∀ e ∈ ns, ∀ x, find es e = some x → Proper (cwd.length + (join cs).length + (1 + e.length)) x) →
      (∀ e ∈ ns, e = dot ∨ e = dotdot ∨ (Real e ∧ cwd.length + (join cs).length + (1 + e.length) ≤ 8189)) →
      find es dot = none → find es dotdot = none →
      (join cs ++ 47 :: tl).length = 8192 →
      ∃ tl', entries (treeSys cwd ls) rec (join cs).length ns t (join cs ++ 47 :: tl) =
          .ok (put t cs (.dir (ns.foldl (step sgn) es)), join cs ++ 47 :: tl') ∧
        (join cs ++ 47 :: tl').length = 8192
  | [], t, es, tl, ht, _, _, _, _, _, hl => ⟨tl, by rw [entries, List.foldl_nil, put_self cs t _ ht], hl⟩
  | e :: ns, t, es, tl, ht, hnd, hfit, hgood, hdt, hdd, hl => by
    rw [List.nodup_cons] at hnd
    have ih := entries_exact sgn cwd ls hcwd rec bound hrec cs hne hcs hop hb hroot ns
    have hgood' := fun x hx => hgood x (List.mem_cons_of_mem e hx)
    have hfit' := fun c (hc : c ∈ ns) => hfit c (List.mem_cons_of_mem e hc)
    have hcl : 1 ≤ cwd.length := by cases cwd with | nil => cases hcwd | cons a b => simp
    have he0 : 0 ∉ e := by
      rcases hgood e List.mem_cons_self with rfl | rfl | h
      · decide
      · decide
      · exact h.1.2.2.2.1
    have hel : ¬ e.length + 1 > 8192 - (join cs).length - 1 := by
      rcases hgood e List.mem_cons_self with rfl | rfl | h
      · simp [dot]; omega
      · simp [dotdot]; omega
      · have := h.2; omega
    obtain ⟨tl1, h1, h1l⟩ := read_ok (join cs) e tl hl hel
    rw [entries, readEntry, if_neg hel, h1, ok_bind, ok_bind]
    dsimp only
    have hd : (join cs ++ 47 :: (e ++ 0 :: tl1)).drop ((join cs).length + 1) = e ++ 0 :: tl1 := by
      rw [← List.drop_drop]; simp
    rw [hd, cstr_ok e tl1 he0, ok_bind, List.foldl_cons]
    by_cases hdot : e = [46] ∨ e = [46, 46]
    · rw [if_pos hdot]
      have hstep : step sgn es e = es := by
        unfold step
        rcases hdot with rfl | rfl
        · rw [show find es [46] = none from hdt]
        · rw [show find es [46, 46] = none from hdd]
      rw [hstep]
      exact ih t es _ ht hnd.2 hfit' hgood' hdt hdd h1l
    · rw [if_neg hdot]
      have hge : Real e := by
        rcases hgood e List.mem_cons_self with h | h | h
        · exact absurd (.inl h) hdot
        · exact absurd (.inr h) hdot
        · exact h.1
      have hp : join cs ++ 47 :: (e ++ 0 :: tl1) = join (cs ++ [e]) ++ 0 :: tl1 := by rw [join_snoc]; simp
      have hce : ∀ g ∈ cs ++ [e], Real g := by
        intro g hg
        rcases List.mem_append.1 hg with hg | hg
        · exact hcs g hg
        · simp at hg; subst hg; exact hge
      have hoe : (∀ g ∈ cs ++ [e], Opens sgn g) ↔ Opens sgn e := by
        constructor
        · intro h; exact h e (by simp)
        · intro h g hg
          rcases List.mem_append.1 hg with hg | hg
          · exact hop g hg
          · simp at hg; subst hg; exact h
      have hp0 : 0 ∉ join (cs ++ [e]) := join_zero (fun g hg => (hce g hg).2.2.2.1)
      have hcomps : comps (join (cs ++ [e])) = cs ++ [e] := comps_of_join (fun g hg => (hce g hg).clean)
      have hlk : lookup t (cs ++ [e]) = find es e := by
        rw [lookup_append, ht]
        show lookup (.dir es) [e] = _
        rw [lookup]
        cases find es e with
        | none => rfl
        | some x => exact lookup_nil x
      have hcstr : cstr (join cs ++ 47 :: (e ++ 0 :: tl1)) = .ok (join (cs ++ [e])) := by rw [hp]; exact cstr_ok _ _ hp0
      rw [hcstr, ok_bind]
      have hst : (treeSys cwd ls).lstat t (join (cs ++ [e])) = (t, (find es e).map kind) := by
        simp only [treeSys, hcomps, hlk]
      rw [hst]
      dsimp only
      -- the entry was treated, whatever it was
      have hrest : ∀ (t2 : Node) (tl2 : List Nat), t2 = put t cs (.dir (step sgn es e)) → (join cs ++ 47 :: tl2).length = 8192 →
          ∃ tl', entries (treeSys cwd ls) rec (join cs).length ns t2 (join cs ++ 47 :: tl2) =
              .ok (put t cs (.dir (ns.foldl (step sgn) (step sgn es e))), join cs ++ 47 :: tl') ∧
            (join cs ++ 47 :: tl').length = 8192 := by
        intro t2 tl2 ht2 hl2
        subst ht2
        obtain ⟨tl', g1, g2⟩ := ih (put t cs (.dir (step sgn es e))) (step sgn es e) tl2 (lookup_put cs t _ _ ht) hnd.2
          (fun c hc x hx => by
            rw [find_step (by rintro rfl; exact hnd.1 hc)] at hx
            exact hfit' c hc x hx) hgood'
          (by rw [find_step (fun h => hge.2.1 h.symm)]; exact hdt)
          (by rw [find_step (fun h => hge.2.2.1 h.symm)]; exact hdd) hl2
        rw [put_put] at g1
        exact ⟨tl', g1, g2⟩
      cases hf : find es e with
      | none =>
        apply hrest _ _ ?_ h1l
        unfold step
        rw [hf]
        dsimp only
        rw [put_self cs t _ ht]
      | some x =>
        rw [hf] at hlk
        cases x with
        | file =>
          apply hrest _ _ ?_ h1l
          simp only [treeSys, hcomps, hlk]
          rw [erase_snoc cs e t es ht]
          unfold step
          rw [hf]
          rfl
        | link =>
          apply hrest _ _ ?_ h1l
          simp only [treeSys, hcomps, hlk]
          rw [erase_snoc cs e t es ht]
          unfold step
          rw [hf]
          rfl
        | dir ds =>
          simp only [Option.map_some, kind]
          rw [hp]
          have hlen2 : (join (cs ++ [e])).length = (join cs).length + (1 + e.length) := by rw [join_snoc]; simp; omega
          obtain ⟨tl2, k1, k2⟩ := hrec t (cs ++ [e]) ds tl1 hlk (by simp) hce
            (by rw [hlen2, ← Nat.add_assoc]; exact hfit e List.mem_cons_self _ hf) (by omega) (by rw [← hp]; exact h1l)
          rw [k1, ok_bind]
          dsimp only
          rw [cstr_ok _ _ hp0, ok_bind]
          have hp2 : join (cs ++ [e]) ++ 0 :: tl2 = join cs ++ 47 :: (e ++ 0 :: tl2) := by rw [join_snoc]; simp
          rw [hp2] at k2 ⊢
          apply hrest _ _ ?_ k2
          have hstep : step sgn es e = match left sgn e (.dir ds) with
              | none => drop es e
              | some y => upd es e (fun _ => y) := by
            unfold step
            rw [hf]
          rw [hstep, left]
          have hif : (if ∀ g ∈ cs ++ [e], Opens sgn g then remains sgn ds else ds) = if Opens sgn e then remains sgn ds else ds := by
            by_cases ho : Opens sgn e
            · rw [if_pos ho, if_pos (hoe.2 ho)]
            · rw [if_neg ho, if_neg (fun h => ho (hoe.1 h))]
          rw [hif]
          generalize (if Opens sgn e then remains sgn ds else ds) = ds'
          have hlk2 := lookup_put (cs ++ [e]) t (.dir ds') _ hlk
          cases ds' with
          | nil =>
            simp only [treeSys, hcomps, hlk2]
            rw [if_neg (by simp)]
            have := put_snoc cs e t (.dir []) es ht
            rw [this]
            dsimp only
            rw [erase_snoc cs e _ _ (lookup_put cs t _ _ ht), put_put, drop_upd]
          | cons d ds' =>
            simp only [treeSys, hcomps, hlk2]
            exact put_snoc cs e t _ es ht

theorem rmRec_exact (cwd : List Nat) (ls : List (List Nat) → List (List Nat)) (E : Env) (hE : E.Good) (hc0 : 0 ∉ cwd)
    (hcwd : cwd.head? = some 47) (hls : ∀ l, (ls l).Perm l) : ∀ k, Exact E.sgn cwd (rmRec (treeSys cwd ls) E k) (8192 - k)
  | 0 => by
    intro t cs es tl _ _ _ _ hb hl
    simp at hl hb
    omega
  | k + 1 => by
    intro t cs es tl ht hne hcs hfit hb hl
    have hroot : cwd.length + (join cs).length ≤ 8189 := by
      have := hfit.1 [] _ (lookup_nil _)
      simpa [path] using this
    rw [rmRec, if_neg (by omega), openDir_real cwd ls E hE hc0 hcwd t cs tl hne hcs hroot es ht, ok_bind]
    dsimp only
    obtain ⟨hnd, hreal⟩ := hfit.2 [] es (lookup_nil _)
    by_cases hop : ∀ g ∈ cs, Opens E.sgn g
    · rw [if_pos hop, if_pos hop]
      dsimp only
      rw [wr_append, ok_bind]
      have hnodup : (ls (dot :: dotdot :: es.map (·.1))).Nodup := by
        rw [(hls _).nodup_iff, List.nodup_cons, List.nodup_cons]
        refine ⟨?_, fun h => (hreal _ h).2.2.1 rfl, hnd⟩
        intro h
        rcases List.mem_cons.1 h with h | h
        · exact absurd h (by decide)
        · exact (hreal _ h).2.1 rfl
      obtain ⟨tl', g1, g2⟩ := entries_exact E.sgn cwd ls hcwd (rmRec (treeSys cwd ls) E k) (8192 - k) (rmRec_exact cwd ls E hE hc0 hcwd hls k)
        cs hne hcs hop (by omega) hroot (ls (dot :: dotdot :: es.map (·.1))) t es tl ht hnodup
        (fun e _ x hx => hfit.child hx)
        (fun n hn => by
          rcases List.mem_cons.1 ((hls _).mem_iff.1 hn) with h | h
          · exact .inl h
          · rcases List.mem_cons.1 h with h | h
            · exact .inr (.inl h)
            · obtain ⟨x, hx⟩ := find_mem h
              have := (hfit.child hx).1 [] _ (lookup_nil _)
              exact .inr (.inr ⟨hreal n h, by simpa [path] using this⟩))
        (find_none (fun h => (hreal _ h).2.1 rfl)) (find_none (fun h => (hreal _ h).2.2.1 rfl)) (by simpa using hl)
      rw [steps_all E.sgn _ es hnodup hnd (fun n hn => (hls _).mem_iff.2 (List.mem_cons_of_mem _ (List.mem_cons_of_mem _ hn)))] at g1
      rw [g1, ok_bind]
      dsimp only
      rw [wr_append, ok_bind]
      exact ⟨tl', rfl, by simpa using g2⟩
    · rw [if_neg hop, if_neg hop, put_self cs t _ ht]
      exact ⟨tl, rfl, hl⟩

end Verif.Dir
