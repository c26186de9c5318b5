import Verif.Cache.Spec

/-! # Property C25: the cache -/

namespace Verif.Cache
open Spec
variable {K V : Type}

/-- A cache object matches its past. -/
structure Match (hash : K → Nat) (o : Obj K V) (p : Past K V) : Prop where
  num : o.num = p.num
  pos : 0 < p.num
  len : o.nodes.length = p.num
  content : ∀ (s : Nat) n, o.nodes[s]? = some n → ∀ k v, hash k % p.num = s →
    ((n.used = true ∧ n.key = k ∧ n.value = v) ↔ Holds hash p k v)

theorem lt_of_getElem? {β : Type} {l : List β} {i : Nat} {b : β} (h : l[i]? = some b) : i < l.length := by
  rcases Nat.lt_or_ge i l.length with h' | h'
  · exact h'
  · rw [List.getElem?_eq_none h'] at h; cases h

theorem holds_nil (hash : K → Nat) (n : Nat) (k : K) (v : V) : ¬ Holds hash ⟨n, []⟩ k v := by
  rintro ⟨b, a, h, -⟩
  simp at h

/-- What one more event does. -/
theorem holds_snoc (hash : K → Nat) (n : Nat) (es : List (Event K V)) (e : Event K V) (k : K) (v : V) :
    Holds hash ⟨n, es ++ [e]⟩ k v ↔ e = .inserted k v ∨ (Spares hash n k e ∧ Holds hash ⟨n, es⟩ k v) := by
  constructor
  · rintro ⟨b, a, h, hsp⟩
    rcases List.eq_nil_or_concat a with rfl | ⟨a', e', rfl⟩
    · left
      have := List.append_inj' h rfl
      simpa using this.2
    · right
      simp only [List.concat_eq_append] at h hsp
      have h' : es ++ [e] = (b ++ Event.inserted k v :: a') ++ [e'] := by simpa using h
      have := List.append_inj' h' rfl
      have he : e = e' := by simpa using this.2
      subst he
      exact ⟨hsp e (by simp), b, a', this.1, fun x hx => hsp x (by simp [hx])⟩
  · rintro (rfl | ⟨hs, b, a, h, hsp⟩)
    · exact ⟨es, [], rfl, by simp⟩
    · refine ⟨b, a ++ [e], by simp only at h ⊢; rw [h]; simp, ?_⟩
      intro x hx
      rcases List.mem_append.mp hx with hx | hx
      · exact hsp x hx
      · simp at hx; subst hx; exact hs

theorem copyLoop_eq (src : List (Node K V)) : ∀ (n x : Nat) (dst : List (Node K V)),
    x + n = src.length → dst.length = src.length →
    copyLoop dst src n x = .ok (dst.take x ++ src.drop x) := by
  intro n
  induction n with
  | zero =>
    intro x dst hx hl
    rw [copyLoop, List.take_of_length_le (by omega), List.drop_of_length_le (by omega), List.append_nil]
  | succ n ih =>
    intro x dst hx hl
    have h1 : x < src.length := by omega
    rw [copyLoop, rd, List.getElem?_eq_getElem h1]
    simp only [ok_bind]
    rw [wr, if_pos (by omega)]
    simp only [ok_bind]
    rw [ih (x + 1) _ (by omega) (by simp; omega)]
    congr 1
    rw [List.drop_eq_getElem_cons h1, List.take_add_one, List.getElem?_set_self (by omega),
      List.take_set_of_le (by omega)]
    simp

theorem emptyLoop_ok : ∀ (n x : Nat) (l : List (Node K V)), x + n = l.length →
    ∃ l', emptyLoop l n x = .ok l' ∧ l'.length = l.length ∧
      (∀ (i : Nat) m, x ≤ i → l'[i]? = some m → m.used = false) ∧
      (∀ (i : Nat), i < x → l'[i]? = l[i]?) := by
  intro n
  induction n with
  | zero =>
    intro x l hx
    refine ⟨l, rfl, rfl, ?_, fun i _ => rfl⟩
    intro i m hi hm
    have := lt_of_getElem? hm
    omega
  | succ n ih =>
    intro x l hx
    have h1 : x < l.length := by omega
    obtain ⟨l', e1, e2, e3, e4⟩ := ih (x + 1) (l.set x { l[x] with used := false }) (by simp; omega)
    refine ⟨l', ?_, by simpa using e2, ?_, ?_⟩
    · rw [emptyLoop, rd, List.getElem?_eq_getElem h1]
      simp only [ok_bind]
      rw [wr, if_pos h1]
      exact e1
    · intro i m hi hm
      rcases Nat.lt_or_ge x i with h | h
      · exact e3 i m h hm
      · have : i = x := by omega
        subst this
        rw [e4 i (by omega), List.getElem?_set_self h1] at hm
        cases hm; rfl
    · intro i hi
      rw [e4 i (by omega), List.getElem?_set_ne (by omega)]

theorem match_construct (hash : K → Nat) (dk : K) (dv : V) (n : Nat) (h : 0 < n) :
    Match hash (construct dk dv n) ⟨n, []⟩ := by
  refine ⟨rfl, h, by simp [construct], ?_⟩
  intro s m hm k v _
  have : m.used = false := by
    simp only [construct] at hm
    have hl := lt_of_getElem? hm
    simp at hl
    simp [hl] at hm
    rw [← hm]
  constructor
  · rintro ⟨h1, -⟩; rw [this] at h1; cases h1
  · intro h; exact absurd h (holds_nil hash n k v)

/-- The node of the key's slot answers the lookup. -/
theorem node_of (hash : K → Nat) {o : Obj K V} {p : Past K V} (m : Match hash o p) (k : K) :
    ∃ n, slot o (hash k) = .ok (hash k % p.num) ∧ rd o.nodes (hash k % p.num) = .ok n ∧
      o.nodes[hash k % p.num]? = some n ∧ hash k % p.num < o.nodes.length ∧
      ∀ v, (n.used = true ∧ n.key = k ∧ n.value = v) ↔ Holds hash p k v := by
  have hlt : hash k % p.num < o.nodes.length := by rw [m.len]; exact Nat.mod_lt _ m.pos
  have hpos := m.pos
  refine ⟨o.nodes[hash k % p.num], ?_, ?_, List.getElem?_eq_getElem hlt, hlt, ?_⟩
  · unfold slot; rw [if_neg (by rw [m.num]; omega), m.num]
  · unfold rd; rw [List.getElem?_eq_getElem hlt]
  · intro v
    exact m.content _ _ (List.getElem?_eq_getElem hlt) k v rfl

theorem match_insert (hash : K → Nat) {o : Obj K V} {p : Past K V} (m : Match hash o p) (k : K) (v : V) :
    ∃ o', insert o (hash k) k v = .ok o' ∧ Match hash o' { p with events := p.events ++ [.inserted k v] } := by
  obtain ⟨n, hs, hr, hn, hlt, hc⟩ := node_of hash m k
  refine ⟨{ o with nodes := o.nodes.set (hash k % p.num) { used := true, key := k, value := v } },
    by simp [insert, hs, wr, hlt], m.num, m.pos, by simp [m.len], ?_⟩
  intro s' n' hn' k' v' hk'
  rw [holds_snoc]
  simp only at hn'
  by_cases hsl : hash k % p.num = hash k' % p.num
  · subst hk'
    rw [← hsl, List.getElem?_set_self hlt] at hn'
    cases hn'
    simp only [true_and, Event.inserted.injEq]
    constructor
    · intro h; exact Or.inl h
    · rintro (h | ⟨h, -⟩)
      · exact h
      · exact absurd hsl h
  · subst hk'
    rw [List.getElem?_set_ne hsl] at hn'
    rw [m.content _ _ hn' k' v' rfl]
    constructor
    · intro h; exact Or.inr ⟨hsl, h⟩
    · rintro (h | ⟨-, h⟩)
      · cases h; exact absurd rfl hsl
      · exact h

theorem match_remove [DecidableEq K] (hash : K → Nat) {o : Obj K V} {p : Past K V} (m : Match hash o p) (k : K) :
    ∃ b o', remove o (hash k) k = .ok (b, o') ∧ (b = true ↔ ∃ v, Holds hash p k v) ∧
      Match hash o' { p with events := p.events ++ [.removed k] } := by
  obtain ⟨n, hs, hr, hn, hlt, hc⟩ := node_of hash m k
  by_cases hu : n.used = true ∧ n.key = k
  · refine ⟨true, { o with nodes := o.nodes.set (hash k % p.num) { n with used := false } },
      by simp [remove, hs, hr, hu, wr, hlt], ?_, m.num, m.pos, by simp [m.len], ?_⟩
    · simp only [true_iff]
      exact ⟨n.value, (hc n.value).mp ⟨hu.1, hu.2, rfl⟩⟩
    · intro s' n' hn' k' v' hk'
      rw [holds_snoc]
      simp only at hn'
      subst hk'
      by_cases hsl : hash k % p.num = hash k' % p.num
      · rw [← hsl, List.getElem?_set_self hlt] at hn'
        cases hn'
        simp only [Bool.false_eq_true, false_and, false_iff]
        rintro (h | ⟨h1, h2⟩)
        · cases h
        · have := (m.content _ n (hsl ▸ hn) k' v' rfl).mpr h2
          exact h1 (hu.2.symm.trans this.2.1)
      · rw [List.getElem?_set_ne hsl] at hn'
        rw [m.content _ _ hn' k' v' rfl]
        constructor
        · intro h
          refine Or.inr ⟨?_, h⟩
          intro e; exact hsl (by rw [e])
        · rintro (h | ⟨-, h⟩)
          · cases h
          · exact h
  · refine ⟨false, o, by simp only [remove, hs, ok_bind, hr, if_neg hu], ?_, m.num, m.pos, m.len, ?_⟩
    · constructor
      · intro h; cases h
      · rintro ⟨v, h⟩
        have := (hc v).mpr h
        exact absurd ⟨this.1, this.2.1⟩ hu
    · intro s' n' hn' k' v' hk'
      rw [holds_snoc, m.content _ _ hn' k' v' hk']
      constructor
      · intro h
        refine Or.inr ⟨?_, h⟩
        intro e
        subst e
        have := (hc v').mpr h
        exact hu ⟨this.1, this.2.1⟩
      · rintro (h | ⟨-, h⟩)
        · cases h
        · exact h

theorem match_empty (hash : K → Nat) {o : Obj K V} {p : Past K V} (m : Match hash o p) :
    ∃ l, emptyLoop o.nodes o.num 0 = .ok l ∧
      Match hash { o with nodes := l } { p with events := p.events ++ [.emptied] } := by
  obtain ⟨l, e1, e2, e3, -⟩ := emptyLoop_ok o.num 0 o.nodes (by rw [m.num, m.len]; omega)
  refine ⟨l, e1, m.num, m.pos, by rw [e2]; exact m.len, ?_⟩
  intro s n hn k v hk
  rw [holds_snoc]
  have := e3 s n (Nat.zero_le _) hn
  constructor
  · rintro ⟨h, -⟩; rw [this] at h; cases h
  · rintro (h | ⟨h, -⟩)
    · cases h
    · exact h.elim

theorem match_copy (hash : K → Nat) (dk : K) (dv : V) {t : Obj K V} {p : Past K V} (m : Match hash t p) :
    copyConstruct dk dv t = .ok t := by
  have hl : t.nodes.length = t.num := by rw [m.len, m.num]
  simp [copyConstruct, construct, copyLoop_eq t.nodes t.num 0 (List.replicate t.num ⟨false, dk, dv⟩)
    (by omega) (by simp; omega)]

theorem match_assign (hash : K → Nat) (dk : K) (dv : V) {o t : Obj K V} {p q : Past K V} (mo : Match hash o q)
    (m : Match hash t p) : assign dk dv o t = .ok t := by
  have hl : t.nodes.length = t.num := by rw [m.len, m.num]
  have hl' : o.nodes.length = o.num := by rw [mo.len, mo.num]
  unfold assign
  by_cases h : o.num = t.num
  · simp only [h, ne_eq, not_true_eq_false, if_false]
    rw [copyLoop_eq t.nodes t.num 0 o.nodes (by omega) (by omega)]
    simp
  · simp [h, construct, copyLoop_eq t.nodes t.num 0 (List.replicate t.num ⟨false, dk, dv⟩)
      (by omega) (by simp; omega)]

/-- All caches match their pasts. -/
def MatchAll (hash : K → Nat) (w : List (Obj K V)) (s : List (Past K V)) : Prop :=
  w.length = s.length ∧ ∀ (i : Nat) o p, w[i]? = some o → s[i]? = some p → Match hash o p

theorem matchAll_push (hash : K → Nat) {w : List (Obj K V)} {s : List (Past K V)} (M : MatchAll hash w s)
    {o : Obj K V} {p : Past K V} (m : Match hash o p) : MatchAll hash (w ++ [o]) (s ++ [p]) := by
  refine ⟨by simp [M.1], ?_⟩
  intro i o' p' ho hp
  rcases Nat.lt_or_ge i w.length with h | h
  · rw [List.getElem?_append_left h] at ho
    rw [List.getElem?_append_left (by rw [← M.1]; exact h)] at hp
    exact M.2 i o' p' ho hp
  · have := lt_of_getElem? ho
    have hi : i = w.length := by simp at this; omega
    subst hi
    simp at ho
    rw [M.1] at hp
    simp at hp
    subst ho hp
    exact m

theorem matchAll_set (hash : K → Nat) {w : List (Obj K V)} {s : List (Past K V)} (M : MatchAll hash w s)
    (i : Nat) {o : Obj K V} {p : Past K V} (m : Match hash o p) : MatchAll hash (w.set i o) (s.set i p) := by
  refine ⟨by simp [M.1], ?_⟩
  intro j o' p' ho hp
  by_cases h : i = j
  · subst h
    have h1 := lt_of_getElem? ho
    have h2 := lt_of_getElem? hp
    simp at h1 h2
    rw [List.getElem?_set_self h1] at ho
    rw [List.getElem?_set_self h2] at hp
    cases ho; cases hp
    exact m
  · rw [List.getElem?_set_ne h] at ho hp
    exact M.2 j o' p' ho hp

theorem get_both (hash : K → Nat) {w : List (Obj K V)} {s : List (Past K V)} (M : MatchAll hash w s) {i : Nat}
    (h : i < s.length) : ∃ o p, obj w i = .ok o ∧ w[i]? = some o ∧ s[i]? = some p ∧ Match hash o p := by
  have h' : i < w.length := by rw [M.1]; exact h
  exact ⟨w[i], s[i], by simp [obj, List.getElem?_eq_getElem h'], List.getElem?_eq_getElem h',
    List.getElem?_eq_getElem h, M.2 i _ _ (List.getElem?_eq_getElem h') (List.getElem?_eq_getElem h)⟩

theorem run_correct [DecidableEq K] (hash : K → Nat) (dk : K) (dv : V) (ops : List (Op K V)) :
    ∀ (w : List (Obj K V)) (s : List (Past K V)), MatchAll hash w s → Legal hash s.length ops →
    ∃ os w' s', run dk dv w ops = .ok (os, w') ∧ Run hash s ops os s' := by
  induction ops with
  | nil => intro w s M _; exact ⟨[], w, s, rfl, .nil s⟩
  | cons op ops ih =>
    intro w s M hl
    -- it suffices to do one step
    have key : ∀ (o : Out V) w1 s1, step dk dv w op = .ok (o, w1) → Step hash s op o s1 → MatchAll hash w1 s1 →
        Legal hash s1.length ops → ∃ os w' s', run dk dv w (op :: ops) = .ok (os, w') ∧
          Run hash s (op :: ops) os s' := by
      intro o w1 s1 h1 h2 h3 h4
      obtain ⟨os, w', s', h5, h6⟩ := ih w1 s1 h3 h4
      exact ⟨o :: os, w', s', by simp [run, h1, h5], .cons h2 h6⟩
    cases op with
    | construct n =>
      obtain ⟨h0, hl⟩ := hl
      exact key .none _ _ rfl ⟨rfl, rfl⟩ (matchAll_push hash M (match_construct hash dk dv n h0))
        (by simpa using hl)
    | copyConstruct j =>
      obtain ⟨h0, hl⟩ := hl
      obtain ⟨t, p, e1, e2, e3, m⟩ := get_both hash M h0
      exact key .none _ _ (by simp [step, e1, match_copy hash dk dv m]) ⟨p, e3, rfl, rfl⟩
        (matchAll_push hash M m) (by simpa using hl)
    | assign i j =>
      obtain ⟨h0, h1, hl⟩ := hl
      obtain ⟨o, q, d1, d2, d3, mo⟩ := get_both hash M h0
      obtain ⟨t, p, e1, e2, e3, m⟩ := get_both hash M h1
      by_cases hij : i = j
      · subst hij
        refine key .none w s (by simp [step, d1]) ⟨p, e3, rfl, ?_⟩ M hl
        apply List.ext_getElem?
        intro k
        rw [List.getElem?_set]
        split
        · rename_i e; subst e; rw [e3]
        · rfl
      · exact key .none (w.set i t) (s.set i p)
          (by simp [step, d1, e1, hij, match_assign hash dk dv mo m]) ⟨p, e3, rfl, rfl⟩
          (matchAll_set hash M i m) (by simpa using hl)
    | empty i =>
      obtain ⟨h0, hl⟩ := hl
      obtain ⟨o, p, e1, e2, e3, m⟩ := get_both hash M h0
      obtain ⟨l, d1, d2⟩ := match_empty hash m
      exact key .none _ _ (by simp [step, e1, d1]) ⟨p, e3, rfl, rfl⟩ (matchAll_set hash M i d2)
        (by simpa using hl)
    | insert i hk k v =>
      obtain ⟨h0, rfl, hl⟩ := hl
      obtain ⟨o, p, e1, e2, e3, m⟩ := get_both hash M h0
      obtain ⟨o', d1, d2⟩ := match_insert hash m k v
      exact key .none _ _ (by simp [step, e1, d1]) ⟨p, e3, rfl, rfl⟩ (matchAll_set hash M i d2)
        (by simpa using hl)
    | remove i hk k =>
      obtain ⟨h0, rfl, hl⟩ := hl
      obtain ⟨o, p, e1, e2, e3, m⟩ := get_both hash M h0
      obtain ⟨b, o', d1, d2, d3⟩ := match_remove hash m k
      exact key (.bool b) _ _ (by simp [step, e1, d1]) ⟨p, e3, ⟨b, rfl, d2⟩, rfl⟩
        (matchAll_set hash M i d3) (by simpa using hl)
    | exists_ i hk k =>
      obtain ⟨h0, rfl, hl⟩ := hl
      obtain ⟨o, p, e1, e2, e3, m⟩ := get_both hash M h0
      obtain ⟨n, hs, hr, hn, hlt, hc⟩ := node_of hash m k
      refine key (.bool (decide (n.used ∧ n.key = k))) w s (by simp [step, e1, exists_, hs, hr])
        ⟨p, e3, ⟨_, rfl, ?_⟩, rfl⟩ M hl
      rw [decide_eq_true_iff]
      constructor
      · intro h; exact ⟨n.value, (hc _).mp ⟨h.1, h.2, rfl⟩⟩
      · rintro ⟨v, h⟩
        have := (hc v).mpr h
        exact ⟨this.1, this.2.1⟩
    | find i hk k =>
      obtain ⟨h0, rfl, hl⟩ := hl
      obtain ⟨o, p, e1, e2, e3, m⟩ := get_both hash M h0
      obtain ⟨n, hs, hr, hn, hlt, hc⟩ := node_of hash m k
      refine key (.found (if n.used ∧ n.key = k then some n.value else none)) w s ?_
        ⟨p, e3, ⟨_, rfl, ?_⟩, rfl⟩ M hl
      · simp only [step, e1, find, hs, hr, ok_bind]
        split <;> rfl
      · intro v
        rw [← hc v]
        by_cases h : n.used = true ∧ n.key = k
        · rw [if_pos h]; simp [h]
        · rw [if_neg h]
          constructor
          · intro h'; cases h'
          · intro h'; exact absurd ⟨h'.1, h'.2.1⟩ h

/-- **C25.**  For every history of operations on any number of caches (each with at least one slot, the hash
passed being a function of the key), all lookups answer exactly as the pasts of the caches demand: `Find` yields
`v` for `k` if and only if `v` was stored for that very key and nothing since then emptied the cache, removed
`k`, or stored any key in the same slot; `Exists` and the result of `Remove` agree with that; copies and
assigned caches answer like their source, and later changes to one do not affect the other.  No operation reads
or writes outside its node array. -/
theorem cache_correct [DecidableEq K] (hash : K → Nat) (dk : K) (dv : V) (ops : List (Op K V))
    (hl : Legal hash 0 ops) : ∃ os w s, run dk dv [] ops = .ok (os, w) ∧ Run hash [] ops os s :=
  run_correct hash dk dv ops [] [] ⟨rfl, by simp⟩ hl

/-- The correct answers are unique, so `Run` leaves no slack: the code's answers are determined by the pasts. -/
theorem run_unique (hash : K → Nat) (ops : List (Op K V)) : ∀ (s : List (Past K V)) os s1 os' s2,
    Run hash s ops os s1 → Run hash s ops os' s2 → os = os' ∧ s1 = s2 := by
  have hb : ∀ (P : Prop) (b b' : Bool), (b = true ↔ P) → (b' = true ↔ P) → b = b' := by
    intro P b b' h1 h2
    cases b <;> cases b' <;> simp_all
  have ho : ∀ (P : V → Prop) (r r' : Option V), (∀ v, r = some v ↔ P v) → (∀ v, r' = some v ↔ P v) →
      r = r' := by
    intro P r r' h1 h2
    cases r with
    | some v => exact ((h2 v).mpr ((h1 v).mp rfl)).symm
    | none =>
      cases r' with
      | none => rfl
      | some v => exact absurd ((h1 v).mpr ((h2 v).mp rfl)) (by simp)
  induction ops with
  | nil => intro s os s1 os' s2 h1 h2; cases h1; cases h2; exact ⟨rfl, rfl⟩
  | cons op ops ih =>
    intro s os s1 os' s2 h1 h2
    cases h1 with
    | cons a1 r1 =>
      cases h2 with
      | cons a2 r2 =>
        rename_i o1 t1 os1 o2 t2 os2
        have : o1 = o2 ∧ t1 = t2 := by
          cases op with
          | construct n => exact ⟨a1.1.trans a2.1.symm, a1.2.trans a2.2.symm⟩
          | copyConstruct j =>
            obtain ⟨p, e1, e2, e3⟩ := a1
            obtain ⟨q, d1, d2, d3⟩ := a2
            rw [e1] at d1; cases d1
            exact ⟨e2.trans d2.symm, e3.trans d3.symm⟩
          | assign i j =>
            obtain ⟨p, e1, e2, e3⟩ := a1
            obtain ⟨q, d1, d2, d3⟩ := a2
            rw [e1] at d1; cases d1
            exact ⟨e2.trans d2.symm, e3.trans d3.symm⟩
          | empty i =>
            obtain ⟨p, e1, e2, e3⟩ := a1
            obtain ⟨q, d1, d2, d3⟩ := a2
            rw [e1] at d1; cases d1
            exact ⟨e2.trans d2.symm, e3.trans d3.symm⟩
          | insert i hk k v =>
            obtain ⟨p, e1, e2, e3⟩ := a1
            obtain ⟨q, d1, d2, d3⟩ := a2
            rw [e1] at d1; cases d1
            exact ⟨e2.trans d2.symm, e3.trans d3.symm⟩
          | remove i hk k =>
            obtain ⟨p, e1, ⟨b, e2, e4⟩, e3⟩ := a1
            obtain ⟨q, d1, ⟨b', d2, d4⟩, d3⟩ := a2
            rw [e1] at d1; cases d1
            exact ⟨by rw [e2, d2, hb _ _ _ e4 d4], e3.trans d3.symm⟩
          | exists_ i hk k =>
            obtain ⟨p, e1, ⟨b, e2, e4⟩, e3⟩ := a1
            obtain ⟨q, d1, ⟨b', d2, d4⟩, d3⟩ := a2
            rw [e1] at d1; cases d1
            exact ⟨by rw [e2, d2, hb _ _ _ e4 d4], e3.trans d3.symm⟩
          | find i hk k =>
            obtain ⟨p, e1, ⟨b, e2, e4⟩, e3⟩ := a1
            obtain ⟨q, d1, ⟨b', d2, d4⟩, d3⟩ := a2
            rw [e1] at d1; cases d1
            exact ⟨by rw [e2, d2, ho _ _ _ e4 d4], e3.trans d3.symm⟩
        obtain ⟨rfl, rfl⟩ := this
        obtain ⟨rfl, rfl⟩ := ih _ _ _ _ _ r1 r2
        exact ⟨rfl, rfl⟩

/-- A legal history with a collision: keys 1 and 4 share a slot of 3. -/
example : Legal (fun k : Nat => k) 0 [.construct 3, .insert 0 1 1 "a", .insert 0 4 4 "b", .find 0 1 1,
    .find 0 4 4, .copyConstruct 0, .remove 0 4 4, .find 1 4 4, .exists_ 0 4 4] := by
  simp [Legal]

example : (run 0 "" [] [.construct 3, .insert 0 1 1 "a", .insert 0 4 4 "b", .find 0 1 1,
    .find 0 4 4, .copyConstruct 0, .remove 0 4 4, .find 1 4 4, .exists_ 0 4 4]).map (·.1) =
    .ok [.none, .none, .none, .found none, .found (some "b"), .none, .bool true, .found (some "b"),
      .bool false] := by
  decide

/-- A cache of zero slots cannot be used: the first operation divides by zero. -/
theorem zero_slots_undefined (dk : Nat) (dv : Nat) (hk k v : Nat) :
    run dk dv [] [.construct 0, .insert 0 hk k v] = .error .divByZero := by
  simp [run, step, construct, obj, insert, slot]

end Verif.Cache
