import Verif.OrderedHash.KeyMem
import Verif.OrderedHash.PropsLoad

/-!
# What the keys of a detachable ordered hash take and give back (C128)

The specification knows nodes with keys; a string key is either a private copy or borrowed from the caller.  There are no
blocks and no pointers in it.
-/

namespace Verif.OrderedHash.KeyMem

namespace Spec

/-- The key of a node: a number, a private copy of some bytes, or `len` bytes of the caller's buffer `u`. -/
inductive SKey where
  | int (i : Int)
  | copied (bs : List UInt8)
  | lent (u len : Nat)
  deriving DecidableEq, Repr

def SKey.isCopied : SKey → Bool
  | .copied _ => true
  | _ => false

def SKey.isLent : SKey → Bool
  | .lent _ _ => true
  | _ => false

/-- The nodes ever made; `none` are deleted ones. -/
abbrev S := List (Option SKey)

/-- The existing node `x`. -/
def at_ (s : S) (x : Nat) : Option SKey :=
  match s[x]? with
  | some (some k) => some k
  | _ => none

/-- What a copy of a key is: the bytes are copied. -/
def cloned (user : List (List UInt8)) : SKey → SKey
  | .lent u len => .copied ((user.getD u []).take len)
  | k => k

/-- The meaning of each call; `none` marks a call outside the protocol: a missing node, a borrowed key that is replaced
or deleted without being given up first, a private copy that is replaced by a pointer. -/
def step (user : List (List UInt8)) (s : S) : Op → Option S
  | .createInt i => some (s ++ [some (.int i)])
  | .createStr bs => some (s ++ [some (.copied bs)])
  | .setInt x i fr => do
    let k ← at_ s x
    if (k.isLent = true → fr = false) ∧ (k.isCopied = true → fr = true) then some (s.set x (some (.int i))) else none
  | .setCopy x bs => do
    let k ← at_ s x
    if k.isLent then none else some (s.set x (some (.copied bs)))
  | .setPtr x u len => do
    let k ← at_ s x
    if k.isCopied then none else if h : u < user.length then if len ≤ user[u].length then some (s.set x (some (.lent u len))) else none else none
  | .setNull x => do
    let k ← at_ s x
    if k.isCopied then none else some (s.set x (some (.int 0)))
  | .copy x => do
    let k ← at_ s x
    some (s ++ [some (cloned user k)])
  | .assign x y =>
    if x = y then some s
    else do
      let k ← at_ s x
      let k' ← at_ s y
      if k.isLent then none else some (s.set x (some (cloned user k')))
  | .delete x => do
    let k ← at_ s x
    if k.isLent then none else some (s.set x none)

def run (user : List (List UInt8)) : S → List Op → Option S
  | s, [] => some s
  | s, op :: ops => do
    let s ← step user s op
    run user s ops

/-- The key a caller reads. -/
def shown (user : List (List UInt8)) : SKey → Key
  | .int i => .int i
  | .copied bs => .str bs
  | .lent u len => .str ((user.getD u []).take len)

/-- A node with a private copy. -/
def hasCopy : Option SKey → Bool
  | some k => k.isCopied
  | none => false

/-- Number of private copies. -/
def copies (s : S) : Nat := s.countP hasCopy

end Spec

open Spec

/-! ## The invariant -/

/-- A node and its key. -/
def NodeOk (heap : List (Option (List UInt8))) (user : List (List UInt8)) : Node → SKey → Prop
  | n, .int i => n = ⟨i, none⟩
  | n, .copied bs => ∃ b buf, n = ⟨bs.length, some (.own b)⟩ ∧ heap[b]? = some (some buf) ∧ bs.length ≤ buf.length ∧ buf.take bs.length = bs
  | n, .lent u len => ∃ buf, n = ⟨len, some (.user u)⟩ ∧ user[u]? = some buf ∧ len ≤ buf.length

structure Inv (user : List (List UInt8)) (m : M) (s : S) : Prop where
  usr : m.user = user
  len : m.nodes.length = s.length
  dead : ∀ x : Nat, s[x]? = some none → m.nodes[x]? = some none
  ok : ∀ (x : Nat) (k : SKey), s[x]? = some (some k) → ∃ n, m.nodes[x]? = some (some n) ∧ NodeOk m.heap m.user n k
  uniq : ∀ (x y b : Nat) (i j : Int), m.nodes[x]? = some (some ⟨i, some (.own b)⟩) → m.nodes[y]? = some (some ⟨j, some (.own b)⟩) → x = y
  cnt : blocks m = copies s

theorem at_some {s : S} {x : Nat} {k : SKey} (h : at_ s x = some k) : s[x]? = some (some k) := by
  unfold at_ at h
  split at h
  · cases h; assumption
  · cases h

theorem node_ok {m : M} {x : Nat} {n : Node} (h : m.nodes[x]? = some (some n)) : node m x = .ok n := by
  unfold node
  rw [h]

theorem lt_of_get {β : Type} {l : List β} {i : Nat} {v : β} (h : l[i]? = some v) : i < l.length := by
  rw [List.getElem?_eq_some_iff] at h
  exact h.1

/-- Counting after replacing one cell. -/
theorem countP_set_some {β : Type} {p : β → Bool} {l : List β} {i : Nat} {v : β} (h : l[i]? = some v) (a : β) :
    (l.set i a).countP p + (if p v then 1 else 0) = l.countP p + (if p a then 1 else 0) := by
  induction l generalizing i with
  | nil => simp at h
  | cons y ys ih =>
    cases i with
    | zero =>
      simp at h
      subst h
      simp only [List.set_cons_zero, List.countP_cons]
      omega
    | succ i =>
      have := ih (i := i) (by simpa using h)
      simp only [List.set_cons_succ, List.countP_cons]
      omega

theorem copied_shape {heap : List (Option (List UInt8))} {user : List (List UInt8)} {n : Node} {k : SKey} (h : NodeOk heap user n k) :
    (∃ i b, n = ⟨i, some (.own b)⟩) ↔ k.isCopied = true := by
  cases k with
  | int i => cases h; simp [SKey.isCopied]
  | copied bs => obtain ⟨b, buf, rfl, -⟩ := h; simp [SKey.isCopied]
  | lent u l => obtain ⟨buf, rfl, -⟩ := h; simp [SKey.isCopied]

/-- Give a node that has no private copy another key without a private copy. -/
theorem Inv.plain {user : List (List UInt8)} {m : M} {s : S} (h : Inv user m s) {x : Nat} {k0 k : SKey} {n : Node}
    (hx : s[x]? = some (some k0)) (h0 : k0.isCopied = false) (hk : k.isCopied = false) (hn : NodeOk m.heap m.user n k) :
    Inv user (put m x n) (s.set x (some k)) := by
  have hl := lt_of_get hx
  have hl' : x < m.nodes.length := by rw [h.len]; exact hl
  refine ⟨h.usr, by simp [put, h.len], fun y hy => ?_, fun y q hy => ?_, fun y z b i j hy hz => ?_, ?_⟩
  · rw [List.getElem?_set] at hy
    split at hy
    · cases hy
    · rename_i e
      show (m.nodes.set x _)[y]? = _
      rw [List.getElem?_set_ne e]
      exact h.dead y hy
  · show ∃ n', (m.nodes.set x _)[y]? = _ ∧ _
    by_cases e : x = y
    · subst e
      rw [List.getElem?_set_self hl] at hy
      cases hy
      exact ⟨n, by rw [List.getElem?_set_self hl'], hn⟩
    · rw [List.getElem?_set_ne e] at hy ⊢
      exact h.ok y q hy
  · have no : ∀ {y : Nat} {i : Int}, (put m x n).nodes[y]? = some (some ⟨i, some (.own b)⟩) → y ≠ x := by
      rintro y i hy rfl
      have hy : (m.nodes.set y (some n))[y]? = _ := hy
      rw [List.getElem?_set_self hl'] at hy
      cases hy
      have := (copied_shape hn).1 ⟨_, _, rfl⟩
      rw [hk] at this
      cases this
    have n1 := no hy
    have n2 := no hz
    have hy : (m.nodes.set x (some n))[y]? = _ := hy
    have hz : (m.nodes.set x (some n))[z]? = _ := hz
    rw [List.getElem?_set_ne (Ne.symm n1)] at hy
    rw [List.getElem?_set_ne (Ne.symm n2)] at hz
    exact h.uniq y z b i j hy hz
  · have := countP_set_some (p := hasCopy) hx (some k)
    have e0 : hasCopy (some k0) = false := h0
    have e1 : hasCopy (some k) = false := hk
    rw [e0, e1] at this
    have h' := h.cnt
    show blocks m = _
    unfold copies at *
    simp at this
    omega

/-- Delete a node that has no private copy. -/
theorem Inv.gone {user : List (List UInt8)} {m : M} {s : S} (h : Inv user m s) {x : Nat} {k0 : SKey}
    (hx : s[x]? = some (some k0)) (h0 : k0.isCopied = false) : Inv user { m with nodes := m.nodes.set x none } (s.set x none) := by
  have hl := lt_of_get hx
  have hl' : x < m.nodes.length := by rw [h.len]; exact hl
  refine ⟨h.usr, by simp [h.len], fun y hy => ?_, fun y q hy => ?_, fun y z b i j hy hz => ?_, ?_⟩
  · show (m.nodes.set x _)[y]? = _
    by_cases e : x = y
    · subst e
      rw [List.getElem?_set_self hl']
    · rw [List.getElem?_set_ne e] at hy ⊢
      exact h.dead y hy
  · show ∃ n', (m.nodes.set x _)[y]? = _ ∧ _
    by_cases e : x = y
    · subst e
      rw [List.getElem?_set_self hl] at hy
      cases hy
    · rw [List.getElem?_set_ne e] at hy ⊢
      exact h.ok y q hy
  · have no : ∀ {y : Nat} {i : Int}, (m.nodes.set x none)[y]? = some (some ⟨i, some (.own b)⟩) → m.nodes[y]? = some (some ⟨i, some (.own b)⟩) := by
      intro y i hy
      by_cases e : x = y
      · subst e
        rw [List.getElem?_set_self hl'] at hy
        cases hy
      · rwa [List.getElem?_set_ne e] at hy
    exact h.uniq y z b i j (no hy) (no hz)
  · have := countP_set_some (p := hasCopy) hx none
    have e0 : hasCopy (some k0) = false := h0
    have e1 : hasCopy none = false := rfl
    rw [e0, e1] at this
    have h' := h.cnt
    show blocks m = _
    unfold copies at *
    simp at this
    omega

/-- Free the private copy of a node. -/
theorem Inv.freed {user : List (List UInt8)} {m : M} {s : S} (h : Inv user m s) {x : Nat} {bs : List UInt8} {j : Int} {b : Nat}
    (hx : s[x]? = some (some (.copied bs))) (hn : m.nodes[x]? = some (some ⟨j, some (.own b)⟩)) (i : Int) :
    ∃ m', free m (.own b) = .ok m' ∧ m'.nodes = m.nodes ∧ Inv user (put m' x ⟨i, none⟩) (s.set x (some (.int i))) := by
  have hl := lt_of_get hx
  have hl' : x < m.nodes.length := by rw [h.len]; exact hl
  obtain ⟨n, hn2, b', buf, rfl, h1, h2, h3⟩ := h.ok x _ hx
  rw [hn] at hn2
  cases hn2
  refine ⟨{ m with heap := m.heap.set b none }, by simp only [free, h1], rfl, ?_⟩
  have hb := lt_of_get h1
  have oth : ∀ {y : Nat} {n : Node} {q : SKey}, x ≠ y → m.nodes[y]? = some (some n) → NodeOk m.heap m.user n q →
      NodeOk (m.heap.set b none) m.user n q := by
    intro y n q e hy hq
    cases q with
    | int i => exact hq
    | lent u l => exact hq
    | copied cs =>
      obtain ⟨b2, buf2, rfl, g1, g2⟩ := hq
      refine ⟨b2, buf2, rfl, ?_, g2⟩
      have : b ≠ b2 := by
        rintro rfl
        exact e (h.uniq x y b _ _ hn hy)
      rw [List.getElem?_set_ne this]
      exact g1
  refine ⟨h.usr, by simp [put, h.len], fun y hy => ?_, fun y q hy => ?_, fun y z c i' j' hy hz => ?_, ?_⟩
  · show (m.nodes.set x _)[y]? = _
    by_cases e : x = y
    · subst e
      rw [List.getElem?_set_self hl] at hy
      cases hy
    · rw [List.getElem?_set_ne e] at hy ⊢
      exact h.dead y hy
  · show ∃ n', (m.nodes.set x _)[y]? = _ ∧ NodeOk (m.heap.set b none) m.user _ _
    by_cases e : x = y
    · subst e
      rw [List.getElem?_set_self hl] at hy
      cases hy
      exact ⟨_, by rw [List.getElem?_set_self hl'], rfl⟩
    · rw [List.getElem?_set_ne e] at hy ⊢
      obtain ⟨n, g1, g2⟩ := h.ok y q hy
      exact ⟨n, g1, oth e g1 g2⟩
  · have no : ∀ {y : Nat} {i' : Int}, (m.nodes.set x (some ⟨i, none⟩))[y]? = some (some ⟨i', some (.own c)⟩) →
        m.nodes[y]? = some (some ⟨i', some (.own c)⟩) := by
      intro y i' hy
      by_cases e : x = y
      · subst e
        rw [List.getElem?_set_self hl'] at hy
        cases hy
      · rwa [List.getElem?_set_ne e] at hy
    exact h.uniq y z c i' j' (no hy) (no hz)
  · have c1 := countP_set_some (p := hasCopy) hx (some (.int i))
    have c2 := countP_set_some (p := fun b : Option (List UInt8) => b.isSome) h1 none
    have e0 : hasCopy (some (.copied bs)) = true := rfl
    have e1 : hasCopy (some (.int i)) = false := rfl
    rw [e0, e1] at c1
    have h' := h.cnt
    unfold blocks copies at *
    show (m.heap.set b none).countP _ = _
    simp at c1 c2
    omega

/-- A new block for a node that has no private copy. -/
theorem Inv.fill {user : List (List UInt8)} {m : M} {s : S} (h : Inv user m s) {x : Nat} {k0 : SKey}
    (hx : s[x]? = some (some k0)) (h0 : k0.isCopied = false) (bs : List UInt8) :
    Inv user (put (alloc m bs).2 x ⟨bs.length, some (alloc m bs).1⟩) (s.set x (some (.copied bs))) := by
  have hl := lt_of_get hx
  have hl' : x < m.nodes.length := by rw [h.len]; exact hl
  have oth : ∀ {n : Node} {q : SKey}, NodeOk m.heap m.user n q → NodeOk (m.heap ++ [some bs]) m.user n q := by
    intro n q hq
    cases q with
    | int i => exact hq
    | lent u l => exact hq
    | copied cs =>
      obtain ⟨b2, buf2, rfl, g1, g2⟩ := hq
      exact ⟨b2, buf2, rfl, by rw [List.getElem?_append_left (lt_of_get g1)]; exact g1, g2⟩
  have low : ∀ {y : Nat} {i : Int} {b : Nat}, m.nodes[y]? = some (some ⟨i, some (.own b)⟩) → b < m.heap.length := by
    intro y i b hy
    have hys : y < s.length := by rw [← h.len]; exact lt_of_get hy
    cases hs : s[y] with
    | none =>
      have := h.dead y (by rw [List.getElem?_eq_getElem hys, hs])
      rw [hy] at this
      cases this
    | some q =>
      obtain ⟨n, g1, g2⟩ := h.ok y q (by rw [List.getElem?_eq_getElem hys, hs])
      rw [hy] at g1
      cases g1
      cases q with
      | int i => cases g2
      | lent u l => obtain ⟨_, g2, -⟩ := g2; cases g2
      | copied cs =>
        obtain ⟨b2, buf2, e, g1, -⟩ := g2
        cases e
        exact lt_of_get g1
  refine ⟨h.usr, by simp [put, alloc, h.len], fun y hy => ?_, fun y q hy => ?_, fun y z c i' j' hy hz => ?_, ?_⟩
  · show (m.nodes.set x _)[y]? = _
    by_cases e : x = y
    · subst e
      rw [List.getElem?_set_self hl] at hy
      cases hy
    · rw [List.getElem?_set_ne e] at hy ⊢
      exact h.dead y hy
  · show ∃ n', (m.nodes.set x _)[y]? = _ ∧ NodeOk (m.heap ++ [some bs]) m.user _ _
    by_cases e : x = y
    · subst e
      rw [List.getElem?_set_self hl] at hy
      cases hy
      refine ⟨⟨bs.length, some (.own m.heap.length)⟩, by rw [List.getElem?_set_self hl']; rfl, m.heap.length, bs, rfl, by simp, Nat.le_refl _, by simp⟩
    · rw [List.getElem?_set_ne e] at hy ⊢
      obtain ⟨n, g1, g2⟩ := h.ok y q hy
      exact ⟨n, g1, oth g2⟩
  · have hy : (m.nodes.set x (some ⟨bs.length, some (.own m.heap.length)⟩))[y]? = _ := hy
    have hz : (m.nodes.set x (some ⟨bs.length, some (.own m.heap.length)⟩))[z]? = _ := hz
    by_cases e1 : x = y
    · by_cases e2 : x = z
      · exact e1.symm.trans e2
      · subst e1
        rw [List.getElem?_set_self hl'] at hy
        rw [List.getElem?_set_ne e2] at hz
        cases hy
        exact absurd (low hz) (Nat.lt_irrefl _)
    · by_cases e2 : x = z
      · subst e2
        rw [List.getElem?_set_self hl'] at hz
        rw [List.getElem?_set_ne e1] at hy
        cases hz
        exact absurd (low hy) (Nat.lt_irrefl _)
      · rw [List.getElem?_set_ne e1] at hy
        rw [List.getElem?_set_ne e2] at hz
        exact h.uniq y z c i' j' hy hz
  · have c1 := countP_set_some (p := hasCopy) hx (some (.copied bs))
    have e0 : hasCopy (some k0) = false := h0
    have e1 : hasCopy (some (.copied bs)) = true := rfl
    rw [e0, e1] at c1
    have h' := h.cnt
    unfold blocks copies at *
    show (m.heap ++ [some bs]).countP _ = _
    rw [List.countP_append, List.countP_singleton]
    simp at c1 ⊢
    omega

/-- Overwrite the private copy of a node in place. -/
theorem Inv.over {user : List (List UInt8)} {m : M} {s : S} (h : Inv user m s) {x : Nat} {cs bs : List UInt8} {j : Int} {b : Nat}
    (hx : s[x]? = some (some (.copied cs))) (hn : m.nodes[x]? = some (some ⟨j, some (.own b)⟩)) (hle : bs.length ≤ cs.length) :
    ∃ m', write m (.own b) bs = .ok m' ∧ Inv user (put m' x ⟨bs.length, some (.own b)⟩) (s.set x (some (.copied bs))) := by
  have hl := lt_of_get hx
  have hl' : x < m.nodes.length := by rw [h.len]; exact hl
  obtain ⟨n, hn2, b', buf, rfl, h1, h2, h3⟩ := h.ok x _ hx
  rw [hn] at hn2
  cases hn2
  have hb := lt_of_get h1
  have hw : memcpyTo buf 0 bs bs.length = .ok (bs ++ buf.drop bs.length) := by
    simp [memcpyTo]
    omega
  refine ⟨{ m with heap := m.heap.set b (some (bs ++ buf.drop bs.length)) }, by simp only [write, h1, hw, ok_bind], ?_⟩
  have oth : ∀ {y : Nat} {n : Node} {q : SKey}, x ≠ y → m.nodes[y]? = some (some n) → NodeOk m.heap m.user n q →
      NodeOk (m.heap.set b (some (bs ++ buf.drop bs.length))) m.user n q := by
    intro y n q e hy hq
    cases q with
    | int i => exact hq
    | lent u l => exact hq
    | copied ds =>
      obtain ⟨b2, buf2, rfl, g1, g2⟩ := hq
      refine ⟨b2, buf2, rfl, ?_, g2⟩
      have : b ≠ b2 := by
        rintro rfl
        exact e (h.uniq x y b _ _ hn hy)
      rw [List.getElem?_set_ne this]
      exact g1
  refine ⟨h.usr, by simp [put, h.len], fun y hy => ?_, fun y q hy => ?_, fun y z c i' j' hy hz => ?_, ?_⟩
  · show (m.nodes.set x _)[y]? = _
    by_cases e : x = y
    · subst e
      rw [List.getElem?_set_self hl] at hy
      cases hy
    · rw [List.getElem?_set_ne e] at hy ⊢
      exact h.dead y hy
  · show ∃ n', (m.nodes.set x _)[y]? = _ ∧ NodeOk (m.heap.set b _) m.user _ _
    by_cases e : x = y
    · subst e
      rw [List.getElem?_set_self hl] at hy
      cases hy
      exact ⟨⟨bs.length, some (.own b)⟩, by rw [List.getElem?_set_self hl'], b, _, rfl, by rw [List.getElem?_set_self hb], by simp, by simp⟩
    · rw [List.getElem?_set_ne e] at hy ⊢
      obtain ⟨n, g1, g2⟩ := h.ok y q hy
      exact ⟨n, g1, oth e g1 g2⟩
  · have no : ∀ {y : Nat} {i' : Int}, (m.nodes.set x (some ⟨bs.length, some (.own b)⟩))[y]? = some (some ⟨i', some (.own c)⟩) →
        ∃ i'', m.nodes[y]? = some (some ⟨i'', some (.own c)⟩) := by
      intro y i' hy
      by_cases e : x = y
      · subst e
        rw [List.getElem?_set_self hl'] at hy
        cases hy
        exact ⟨_, hn⟩
      · exact ⟨i', by rwa [List.getElem?_set_ne e] at hy⟩
    obtain ⟨i1, hy⟩ := no hy
    obtain ⟨j1, hz⟩ := no hz
    exact h.uniq y z c i1 j1 hy hz
  · have c1 := countP_set_some (p := hasCopy) hx (some (.copied bs))
    have c2 := countP_set_some (p := fun b : Option (List UInt8) => b.isSome) h1 (some (bs ++ buf.drop bs.length))
    have e0 : hasCopy (some (.copied cs)) = true := rfl
    have e1 : hasCopy (some (.copied bs)) = true := rfl
    rw [e0, e1] at c1
    have h' := h.cnt
    unfold blocks copies at *
    show (m.heap.set b (some (bs ++ buf.drop bs.length))).countP _ = _
    simp only [Option.isSome_some] at c2
    simp only [if_true] at c1 c2
    omega

/-- A new node with a key without private copy. -/
theorem Inv.push {user : List (List UInt8)} {m : M} {s : S} (h : Inv user m s) (i : Int) :
    Inv user { m with nodes := m.nodes ++ [some ⟨i, none⟩] } (s ++ [some (.int i)]) := by
  refine ⟨h.usr, by simp [h.len], fun y hy => ?_, fun y q hy => ?_, fun y z c i' j' hy hz => ?_, ?_⟩
  · show (m.nodes ++ _)[y]? = _
    rcases Nat.lt_or_ge y s.length with e | e
    · rw [List.getElem?_append_left e] at hy
      rw [List.getElem?_append_left (by rw [h.len]; exact e)]
      exact h.dead y hy
    · rw [List.getElem?_append_right e] at hy
      cases hz : y - s.length with
      | zero => rw [hz] at hy; cases hy
      | succ j => rw [hz] at hy; simp at hy
  · show ∃ n', (m.nodes ++ _)[y]? = _ ∧ _
    rcases Nat.lt_or_ge y s.length with e | e
    · rw [List.getElem?_append_left e] at hy
      rw [List.getElem?_append_left (by rw [h.len]; exact e)]
      exact h.ok y q hy
    · rw [List.getElem?_append_right e] at hy
      rw [List.getElem?_append_right (by rw [h.len]; exact e), h.len]
      cases hz : y - s.length with
      | zero => rw [hz] at hy; cases hy; exact ⟨_, rfl, rfl⟩
      | succ j => rw [hz] at hy; simp at hy
  · have no : ∀ {y : Nat} {i' : Int}, (m.nodes ++ [some ⟨i, none⟩])[y]? = some (some ⟨i', some (.own c)⟩) →
        m.nodes[y]? = some (some ⟨i', some (.own c)⟩) := by
      intro y i' hy
      rcases Nat.lt_or_ge y m.nodes.length with e | e
      · rwa [List.getElem?_append_left e] at hy
      · rw [List.getElem?_append_right e] at hy
        cases hz : y - m.nodes.length with
        | zero => rw [hz] at hy; cases hy
        | succ j => rw [hz] at hy; simp at hy
    exact h.uniq y z c i' j' (no hy) (no hz)
  · have := h.cnt
    unfold blocks copies at *
    simp only [List.countP_append]
    simpa [hasCopy, SKey.isCopied] using this

theorem read_ok {m : M} {user : List (List UInt8)} (hu : m.user = user) {n : Node} {k : SKey} (h : NodeOk m.heap m.user n k) {p : Ptr}
    (hp : n.sk = some p) : ∃ bs, read m p n.ik.toNat = .ok bs ∧ cloned user k = .copied bs ∧ shown user k = .str bs ∧ n.ik = bs.length := by
  cases k with
  | int i => cases h; cases hp
  | copied bs =>
    obtain ⟨b, buf, rfl, h1, h2, h3⟩ := h
    cases hp
    refine ⟨bs, ?_, rfl, rfl, rfl⟩
    simp only [read, h1, readBytes, Int.toNat_natCast, if_pos h2, h3]
  | lent u l =>
    obtain ⟨buf, rfl, h1, h2⟩ := h
    cases hp
    have : user.getD u [] = buf := by rw [← hu, List.getD_eq_getElem?_getD, h1]; rfl
    refine ⟨buf.take l, ?_, ?_, ?_, ?_⟩
    · simp only [read, h1, readBytes, Int.toNat_natCast, if_pos h2]
    · simp only [cloned, this]
    · simp only [shown, this]
    · simp [Nat.min_eq_left h2]

theorem not_copied_of_none {heap : List (Option (List UInt8))} {user : List (List UInt8)} {n : Node} {k : SKey} (h : NodeOk heap user n k)
    (hp : n.sk = none) : ∃ i, k = .int i ∧ n = ⟨i, none⟩ := by
  cases k with
  | int i => exact ⟨i, rfl, h⟩
  | copied bs => obtain ⟨b, buf, rfl, -⟩ := h; cases hp
  | lent u l => obtain ⟨buf, rfl, -⟩ := h; cases hp

/-- The second half of the copy constructor and of `operator=`. -/
theorem Inv.clone {user : List (List UInt8)} {m : M} {s : S} (h : Inv user m s) {x : Nat} {k0 k : SKey} {n : Node}
    (hx : s[x]? = some (some k0)) (h0 : k0.isCopied = false) (hn : NodeOk m.heap m.user n k) :
    ∃ r, cloneStr m n = .ok r ∧ Inv user (put r.2 x ⟨n.ik, r.1⟩) (s.set x (some (cloned user k))) := by
  obtain ⟨i, sk⟩ := n
  cases sk with
  | none =>
    obtain ⟨j, rfl, e⟩ := not_copied_of_none hn rfl
    cases e
    exact ⟨(none, m), rfl, h.plain hx h0 rfl rfl⟩
  | some p =>
    obtain ⟨bs, r1, r2, -, r4⟩ := read_ok h.usr hn rfl
    refine ⟨(some (alloc m bs).1, (alloc m bs).2), ?_, ?_⟩
    · simp only [cloneStr] at r1 ⊢
      rw [r1]
      rfl
    · rw [r2]
      have r4 : i = bs.length := r4
      subst r4
      exact h.fill hx h0 bs

/-- `if (StrKey != NULL)  delete[] StrKey` for a node whose key is not borrowed. -/
theorem Inv.dropped {user : List (List UInt8)} {m : M} {s : S} (h : Inv user m s) {x : Nat} {k : SKey} {n : Node}
    (hx : s[x]? = some (some k)) (hn : m.nodes[x]? = some (some n)) (hl : k.isLent = false) (i : Int) :
    ∃ m', freeOpt m n.sk = .ok m' ∧ m'.nodes = m.nodes ∧ Inv user (put m' x ⟨i, none⟩) (s.set x (some (.int i))) := by
  obtain ⟨n', g1, g2⟩ := h.ok x k hx
  rw [hn] at g1
  cases g1
  cases k with
  | int j => cases g2; exact ⟨m, rfl, rfl, h.plain hx rfl rfl rfl⟩
  | copied bs =>
    obtain ⟨b, buf, rfl, -⟩ := g2
    exact h.freed hx hn i
  | lent u l => cases hl

theorem set_last {β : Type} (l : List β) (a b : β) : (l ++ [a]).set l.length b = l ++ [b] := by simp

theorem put_put (m : M) (x : Nat) (a b : Node) : put (put m x a) x b = put m x b := by simp [put]

theorem Inv.pushStr {user : List (List UInt8)} {m : M} {s : S} (h : Inv user m s) (bs : List UInt8) :
    Inv user (createStr m bs) (s ++ [some (.copied bs)]) := by
  have h1 := (h.push 0).fill (x := s.length) (k0 := .int 0) (by simp) rfl bs
  rw [set_last] at h1
  have e : createStr m bs = put (alloc { m with nodes := m.nodes ++ [some ⟨0, none⟩] } bs).2 s.length
      ⟨bs.length, some (alloc { m with nodes := m.nodes ++ [some ⟨0, none⟩] } bs).1⟩ := by
    simp only [createStr, put, alloc, ← h.len, set_last]
  rw [e]
  exact h1

theorem set_self_eq {β : Type} {l : List β} {i : Nat} {a : β} (h : l[i]? = some a) : l.set i a = l := by
  apply List.ext_getElem?
  intro j
  rw [List.getElem?_set]
  split
  · rename_i e
    subst e
    rw [h, if_pos (lt_of_get h)]
  · rfl

theorem step_inv {user : List (List UInt8)} {m : M} {s s' : S} (op : Op) (h : Inv user m s) (hs : Spec.step user s op = some s') :
    ∃ m', step m op = .ok m' ∧ Inv user m' s' := by
  cases op with
  | createInt i => cases hs; exact ⟨_, rfl, h.push i⟩
  | createStr bs => cases hs; exact ⟨_, rfl, h.pushStr bs⟩
  | setInt x i fr =>
    obtain ⟨k, hk, hs⟩ := obind_some hs
    have hx := at_some hk
    obtain ⟨n, g1, g2⟩ := h.ok x k hx
    try dsimp only at hs
    split at hs
    · rename_i c
      cases hs
      show ∃ m', setInt m x i fr = _ ∧ _
      unfold setInt
      rw [node_ok g1, ok_bind]
      cases fr with
      | true =>
        have hl : k.isLent = false := by
          cases hh : k.isLent with
          | false => rfl
          | true => exact absurd (c.1 hh) (by simp)
        obtain ⟨m', f1, f2, f3⟩ := h.dropped hx g1 hl i
        exact ⟨_, by rw [if_pos rfl, f1, ok_bind], f3⟩
      | false =>
        have hc : k.isCopied = false := by
          cases hh : k.isCopied with
          | false => rfl
          | true => exact absurd (c.2 hh) (by simp)
        exact ⟨_, by rw [if_neg (by simp), ok_bind], h.plain hx hc rfl rfl⟩
    · cases hs
  | setCopy x bs =>
    obtain ⟨k, hk, hs⟩ := obind_some hs
    have hx := at_some hk
    obtain ⟨n, g1, g2⟩ := h.ok x k hx
    try dsimp only at hs
    split at hs
    · cases hs
    · rename_i c
      cases hs
      show ∃ m', setCopy m x bs = _ ∧ _
      unfold setCopy
      rw [node_ok g1, ok_bind]
      cases k with
      | int i =>
        cases g2
        exact ⟨_, rfl, h.fill hx rfl bs⟩
      | lent u l => exact absurd rfl c
      | copied cs =>
        obtain ⟨b, buf, rfl, h1, h2, h3⟩ := g2
        dsimp only
        split
        · obtain ⟨m', f1, f2, f3⟩ := h.freed hx g1 0
          have f4 := f3.fill (x := x) (k0 := .int 0) (by rw [List.getElem?_set_self (lt_of_get hx)]) rfl bs
          rw [List.set_set] at f4
          refine ⟨_, by rw [f1, ok_bind], ?_⟩
          have e : put (alloc m' bs).2 x ⟨bs.length, some (alloc m' bs).1⟩
              = put (alloc (put m' x ⟨0, none⟩) bs).2 x ⟨bs.length, some (alloc (put m' x ⟨0, none⟩) bs).1⟩ := by
            simp [put, alloc]
          exact e ▸ f4
        · obtain ⟨m', f1, f2⟩ := h.over (bs := bs) hx g1 (by omega)
          exact ⟨_, by rw [f1, ok_bind], f2⟩
  | setPtr x u l =>
    obtain ⟨k, hk, hs⟩ := obind_some hs
    have hx := at_some hk
    obtain ⟨n, g1, g2⟩ := h.ok x k hx
    try dsimp only at hs
    split at hs
    · cases hs
    · rename_i c
      split at hs
      · rename_i hu
        split at hs
        · rename_i hl
          cases hs
          show ∃ m', setPtr m x (some (u, l)) = _ ∧ _
          unfold setPtr
          rw [node_ok g1, ok_bind]
          refine ⟨_, rfl, h.plain hx (by simpa using c) rfl ⟨user[u], rfl, ?_, hl⟩⟩
          rw [h.usr, List.getElem?_eq_getElem hu]
        · cases hs
      · cases hs
  | setNull x =>
    obtain ⟨k, hk, hs⟩ := obind_some hs
    have hx := at_some hk
    obtain ⟨n, g1, g2⟩ := h.ok x k hx
    try dsimp only at hs
    split at hs
    · cases hs
    · rename_i c
      cases hs
      show ∃ m', setPtr m x none = _ ∧ _
      unfold setPtr
      rw [node_ok g1, ok_bind]
      exact ⟨_, rfl, h.plain hx (by simpa using c) rfl rfl⟩
  | copy x =>
    obtain ⟨k, hk, hs⟩ := obind_some hs
    have hx := at_some hk
    obtain ⟨n, g1, g2⟩ := h.ok x k hx
    cases hs
    show ∃ m', copyNode m x = _ ∧ _
    unfold copyNode
    rw [node_ok g1, ok_bind]
    obtain ⟨i, sk⟩ := n
    cases sk with
    | none =>
      obtain ⟨j, rfl, e⟩ := not_copied_of_none g2 rfl
      cases e
      exact ⟨_, rfl, h.push i⟩
    | some p =>
      obtain ⟨bs, r1, r2, -, r4⟩ := read_ok h.usr g2 rfl
      refine ⟨createStr m bs, ?_, r2 ▸ h.pushStr bs⟩
      simp only [cloneStr] at r1 ⊢
      rw [r1]
      simp only [ok_bind]
      have r4 : i = bs.length := r4
      subst r4
      rfl
  | assign x y =>
    unfold Spec.step at hs
    show ∃ m', assign m x y = _ ∧ _
    unfold assign
    try dsimp only at hs
    split at hs
    · rename_i e
      cases hs
      exact ⟨m, if_pos e, h⟩
    · rename_i e
      rw [if_neg e]
      obtain ⟨k, hk, hs⟩ := obind_some hs
      obtain ⟨k', hk', hs⟩ := obind_some hs
      have hx := at_some hk
      have hy := at_some hk'
      obtain ⟨n, g1, -⟩ := h.ok x k hx
      obtain ⟨n', g1', -⟩ := h.ok y k' hy
      try dsimp only at hs
      split at hs
      · cases hs
      · rename_i c
        cases hs
        obtain ⟨m', f1, f2, f3⟩ := h.dropped hx g1 (by simpa using c) 0
        rw [node_ok g1, ok_bind, node_ok g1', ok_bind, f1, ok_bind]
        obtain ⟨n'', q1, q2⟩ := f3.ok y k' (by rw [List.getElem?_set_ne e]; exact hy)
        have q1 : (m'.nodes.set x _)[y]? = _ := q1
        rw [List.getElem?_set_ne e, f2, g1'] at q1
        cases q1
        obtain ⟨⟨p, m2⟩, c1, c2⟩ := f3.clone (x := x) (k0 := .int 0) (by rw [List.getElem?_set_self (lt_of_get hx)]) rfl q2
        rw [List.set_set] at c2
        obtain ⟨i', sk'⟩ := n'
        cases sk' with
        | none =>
          cases c1
          refine ⟨_, rfl, ?_⟩
          rw [put_put] at c2
          exact c2
        | some p' =>
          obtain ⟨bs, b1, b2⟩ := bind_ok c1
          have b1 : read m' p' i'.toNat = .ok bs := by
            cases p' <;> exact b1
          cases b2
          refine ⟨put (alloc m' bs).2 x ⟨i', some (alloc m' bs).1⟩, ?_, ?_⟩
          · simp only [cloneStr, b1, ok_bind]
          · have e2 : put (alloc (put m' x ⟨0, none⟩) bs).2 x ⟨i', some (alloc (put m' x ⟨0, none⟩) bs).1⟩
                = put (alloc m' bs).2 x ⟨i', some (alloc m' bs).1⟩ := by
              simp [put, alloc]
            exact e2 ▸ c2
  | delete x =>
    obtain ⟨k, hk, hs⟩ := obind_some hs
    have hx := at_some hk
    obtain ⟨n, g1, g2⟩ := h.ok x k hx
    try dsimp only at hs
    split at hs
    · cases hs
    · rename_i c
      cases hs
      show ∃ m', delete m x = _ ∧ _
      unfold delete
      obtain ⟨m', f1, f2, f3⟩ := h.dropped hx g1 (by simpa using c) 0
      rw [node_ok g1, ok_bind, f1, ok_bind]
      refine ⟨_, rfl, ?_⟩
      have f4 := f3.gone (x := x) (k0 := .int 0) (by rw [List.getElem?_set_self (lt_of_get hx)]) rfl
      simpa [put, List.set_set] using f4

theorem run_inv {user : List (List UInt8)} : ∀ {ops : List Op} {m : M} {s s' : S}, Inv user m s → Spec.run user s ops = some s' →
    ∃ m', run m ops = .ok m' ∧ Inv user m' s'
  | [], m, s, s', h, hs => by cases hs; exact ⟨m, rfl, h⟩
  | op :: ops, m, s, s', h, hs => by
    obtain ⟨s1, h1, h2⟩ := obind_some hs
    obtain ⟨m1, g1, g2⟩ := step_inv op h h1
    obtain ⟨m2, g3, g4⟩ := run_inv g2 h2
    exact ⟨m2, by show (step m op >>= fun m => run m ops) = _; rw [g1, ok_bind, g3], g4⟩

theorem Inv.key {user : List (List UInt8)} {m : M} {s : S} (h : Inv user m s) {x : Nat} {k : SKey} (hk : at_ s x = some k) :
    key m x = .ok (shown user k) := by
  obtain ⟨n, g1, g2⟩ := h.ok x k (at_some hk)
  unfold KeyMem.key
  rw [node_ok g1, ok_bind]
  obtain ⟨i, sk⟩ := n
  cases sk with
  | none =>
    obtain ⟨j, rfl, e⟩ := not_copied_of_none g2 rfl
    cases e
    rfl
  | some p =>
    obtain ⟨bs, r1, -, r3, -⟩ := read_ok h.usr g2 rfl
    dsimp only at r1 ⊢
    rw [r1, ok_bind, r3]

/-! ## The theorems -/

/-- A program with some memory and no nodes yet. -/
def init (user : List (List UInt8)) : M := ⟨[], [], user⟩

/-- **C128.** -/
theorem key_memory (user : List (List UInt8)) (ops : List Op) (s : S) (hs : Spec.run user [] ops = some s) :
    ∃ m, run (init user) ops = .ok m ∧ m.user = user ∧ blocks m = copies s
      ∧ (∀ (x : Nat) (k : SKey), at_ s x = some k → key m x = .ok (shown user k))
      ∧ ((∀ (x : Nat), at_ s x = none) → blocks m = 0) := by
  have h0 : Inv user (init user) [] :=
    ⟨rfl, rfl, fun x h => by simp at h, fun x k h => by simp at h, fun x y b i j h => by simp [init] at h, rfl⟩
  obtain ⟨m, g1, g2⟩ := run_inv h0 hs
  refine ⟨m, g1, g2.usr, g2.cnt, fun x k hk => g2.key hk, fun hd => ?_⟩
  rw [g2.cnt]
  unfold copies
  rw [List.countP_eq_zero]
  intro a ha
  obtain ⟨x, hx⟩ := List.getElem?_of_mem ha
  cases a with
  | none => simp [hasCopy]
  | some k =>
    have := hd x
    unfold at_ at this
    rw [hx] at this
    cases this

/-- A block that is allocated and that no node refers to. -/
def Lost (m : M) : Prop :=
  ∃ b bs, m.heap[b]? = some (some bs) ∧ ∀ (y : Nat) (n : Node), m.nodes[y]? = some (some n) → n.sk ≠ some (.own b)

theorem lost_put {user : List (List UInt8)} {m : M} {s : S} (h : Inv user m s) {x b : Nat} {buf : List UInt8} {j : Int} {n : Node}
    (hn : m.nodes[x]? = some (some ⟨j, some (.own b)⟩)) (hb : m.heap[b]? = some (some buf)) (hs : n.sk ≠ some (.own b)) : Lost (put m x n) := by
  refine ⟨b, buf, hb, fun y n' hy e => ?_⟩
  have hy : (m.nodes.set x (some n))[y]? = _ := hy
  by_cases exy : x = y
  · subst exy
    rw [List.getElem?_set_self (lt_of_get hn)] at hy
    cases hy
    exact hs e
  · rw [List.getElem?_set_ne exy] at hy
    obtain ⟨i, sk⟩ := n'
    cases e
    exact exy (h.uniq x y b _ _ hn hy)

/-- **C128**, why the protocol cannot be relaxed: after every history inside the protocol, each of the calls it forbids on
an existing node does harm.  A borrowed key that is not given up first: the memory of the caller is freed or overwritten.
A private copy replaced by a pointer, or by a number without `FreeStrKey`: the copy stays allocated and unreachable. -/
theorem protocol_needed (user : List (List UInt8)) (ops : List Op) (s : S) (hs : Spec.run user [] ops = some s) :
    ∃ m, run (init user) ops = .ok m
      ∧ (∀ (x u len : Nat), at_ s x = some (.lent u len) →
          delete m x = .error .badPtr ∧ (∀ i, setInt m x i true = .error .badPtr)
          ∧ (∀ y k, x ≠ y → at_ s y = some k → assign m x y = .error .badPtr)
          ∧ (∀ bs : List UInt8, len < bs.length → setCopy m x bs = .error .badPtr)
          ∧ (∀ bs : List UInt8, bs.length ≤ len → ∃ m', setCopy m x bs = .ok m'
              ∧ m'.user = user.set u (bs ++ (user.getD u []).drop bs.length)))
      ∧ (∀ (x : Nat) (bs : List UInt8), at_ s x = some (.copied bs) →
          (∀ i, ∃ m', setInt m x i false = .ok m' ∧ Lost m')
          ∧ (∀ q, ∃ m', setPtr m x q = .ok m' ∧ Lost m')) := by
  have h0 : Inv user (init user) [] :=
    ⟨rfl, rfl, fun x h => by simp at h, fun x k h => by simp at h, fun x y b i j h => by simp [init] at h, rfl⟩
  obtain ⟨m, g1, h⟩ := run_inv h0 hs
  refine ⟨m, g1, fun x u len hk => ?_, fun x bs hk => ?_⟩
  · obtain ⟨n, q1, buf, rfl, q2, q3⟩ := h.ok x _ (at_some hk)
    have eb : user.getD u [] = buf := by rw [← h.usr, List.getD_eq_getElem?_getD, q2]; rfl
    refine ⟨?_, fun i => ?_, fun y k e hy => ?_, fun bs hl => ?_, fun bs hl => ?_⟩
    · unfold delete; rw [node_ok q1]; rfl
    · unfold setInt; rw [node_ok q1]; rfl
    · obtain ⟨n', r1, -⟩ := h.ok y k (at_some hy)
      unfold assign
      rw [if_neg e, node_ok q1, ok_bind, node_ok r1]
      rfl
    · unfold setCopy
      rw [node_ok q1, ok_bind]
      dsimp only
      rw [if_pos (by omega)]
      rfl
    · unfold setCopy
      rw [node_ok q1, ok_bind]
      dsimp only
      rw [if_neg (by omega)]
      have hw : memcpyTo buf 0 bs bs.length = .ok (bs ++ buf.drop bs.length) := by
        simp [memcpyTo]
        omega
      refine ⟨_, by simp only [write, q2, hw, ok_bind]; rfl, ?_⟩
      rw [eb]
      show m.user.set u _ = _
      rw [h.usr]
  · obtain ⟨n, q1, b, buf, rfl, q2, -⟩ := h.ok x _ (at_some hk)
    refine ⟨fun i => ?_, fun q => ?_⟩
    · refine ⟨put m x ⟨i, none⟩, ?_, lost_put h q1 q2 (by simp)⟩
      unfold setInt
      rw [node_ok q1]
      rfl
    · unfold setPtr
      rw [node_ok q1, ok_bind]
      cases q with
      | none => exact ⟨_, rfl, lost_put h q1 q2 (by simp)⟩
      | some q => exact ⟨_, rfl, lost_put h q1 q2 (by simp)⟩

/-- The comment of `SetStrKey` asks for `SetStrKey(NULL, 0, false)` after a pointer was stored.  Doing so is not enough when
the node had a private copy: here the node is deleted at the end and one block stays allocated. -/
theorem documented_use_leaks : (run (init [[1, 2]]) [.createStr [7], .setPtr 0 0 2, .setNull 0, .delete 0]).map blocks = .ok 1 := by
  rfl

/-- **C128**, the nodes: after every legal history of a hash the destructor deletes the nodes that are in the hash, each once, and
leaves the detached ones alone. -/
theorem destructor_deletes {α : Type} (hf : List UInt8 → Nat) (dflt : α) (n : Nat) (hn : 1 ≤ n) (ops : List (OrderedHash.Op α)) (rs : List Ret)
    (s : OrderedHash.Spec.S α) (hs : OrderedHash.Spec.run (OrderedHash.Spec.S.empty dflt) ops = some (rs, s)) :
    ∃ w w', OrderedHash.run hf (construct dflt n) ops = .ok (rs, w) ∧ destroy w = .ok w'
      ∧ (∀ x, w.lh.live x = true ↔ x ∈ s.seq ∨ x ∈ s.loose) ∧ (∀ x, w'.lh.live x = true ↔ x ∈ s.loose) := by
  obtain ⟨w, h1, h2⟩ := run_refines (R.construct hf dflt (n := n) (by omega)) hs
  obtain ⟨w', h3, h4⟩ := h2.empty
  refine ⟨w, w', h1, ?_, fun x => ⟨h2.own, ?_⟩, fun x => ⟨fun h => ?_, fun h => (h4.looseOk h).1⟩⟩
  · unfold destroy
    rw [if_neg (by have := h2.pos; omega), h3]
  · rintro (h | h)
    · exact h2.chain.live x h
    · exact (h2.looseOk h).1
  · rcases h4.own h with h | h
    · cases h
    · exact h

/-- All calls inside the protocol, with what is left. -/
example : Spec.run [[1, 2, 3]] [] [.createStr [7, 8], .createInt 5, .setPtr 1 0 2, .copy 1, .assign 0 1, .setCopy 0 [9], .setInt 2 4 true,
    .setNull 1, .delete 1] = some [some (.copied [9]), none, some (.int 4)] := by rfl

example : ∃ m, run (init [[1, 2, 3]]) [.createStr [7, 8], .createInt 5, .setPtr 1 0 2, .copy 1, .assign 0 1, .setCopy 0 [9], .setInt 2 4 true,
    .setNull 1, .delete 1] = .ok m ∧ blocks m = 1 ∧ key m 0 = .ok (.str [9]) ∧ key m 2 = .ok (.int 4) := ⟨_, rfl, rfl, rfl, rfl⟩

/-- Three nodes, one taken out: the destructor deletes the other two. -/
example : ∃ w w', OrderedHash.run (fun bs => bs.length) (construct 0 1) [.insert false none (.int 4) 1, .insert false none (.str [1]) 2,
    .insert true none (.str [2]) 3, .detach (some 1) false] = .ok ([.node (some 0), .node (some 1), .node (some 2), .bool true], w)
    ∧ destroy w = .ok w' ∧ w'.lh.live 0 = false ∧ w'.lh.live 1 = true ∧ w'.lh.live 2 = false := ⟨_, _, rfl, rfl, rfl, rfl, rfl⟩

end Verif.OrderedHash.KeyMem
