import Verif.OrderedHash.Props

/-!
# C21: assigning an ordered hash
-/

namespace Verif.OrderedHash
open Spec Links

variable {α : Type}

theorem cloneFrom_ok {junk : Option Nat} {w t : W α} {x : Nat} {k : Key} (hl : w.lh.live x = true) (hk : KeyRep (w.ik x) (w.sk x) k) :
    ∃ sk', cloneFrom junk w t x = .ok { t with
      lh := { live := upd t.lh.live t.fresh true, pv := upd t.lh.pv t.fresh junk, nx := upd t.lh.nx t.fresh none }
      hp := upd t.hp t.fresh none
      hn := upd t.hn t.fresh none
      hk := upd t.hk t.fresh (w.hk x)
      ik := upd t.ik t.fresh (w.ik x)
      sk := upd t.sk t.fresh sk'
      val := upd t.val t.fresh (w.val x)
      fresh := t.fresh + 1 } ∧ KeyRep (w.ik x) sk' k := by
  cases k with
  | int i => exact ⟨none, by simp [cloneFrom, getSk, getIk, hl, hk.1], rfl, hk.2⟩
  | str bs =>
    obtain ⟨buf, h1, h2, h3, h4⟩ := hk
    exact ⟨some bs, by simp [cloneFrom, getSk, getIk, hl, h1, h2, readBytes, h3, h4], bs, rfl, h2, Nat.le_refl _, by simp⟩

theorem assignLoop_ok {junk : Option Nat} {len : Nat} (hpos : 0 < len) (w : W α) (KS : Nat → Key) (VS : Nat → α) :
    ∀ (rest : List Nat) (n : Nat) (t : W α) (ys : List Nat) (q : Option Nat) (K : Nat → Key) (V : Nat → α),
    CopyInv junk t ys len K V → Seg w.lh.pv w.lh.nx q rest none →
    (∀ x ∈ rest, w.lh.live x = true ∧ KeyRep (w.ik x) (w.sk x) (KS x) ∧ w.val x = VS x) →
    (∀ y ∈ ys, y < t.fresh) → rest.length < n →
    ∃ t' zs K' V', assignLoop junk w n t rest.head? = .ok t' ∧ CopyInv junk t' (ys ++ zs) len K' V' ∧
      zs.map (fun z => (K' z, V' z)) = rest.map (fun x => (KS x, VS x)) ∧ (∀ x, x < t.fresh → K' x = K x ∧ V' x = V x) ∧
      t'.fresh = t.fresh + rest.length ∧
      (∀ x, x < t.fresh → x ∉ ys → t'.lh.live x = t.lh.live x ∧ t'.lh.pv x = t.lh.pv x ∧ t'.lh.nx x = t.lh.nx x)
  | [], n + 1, t, ys, q, K, V, inv, _, _, _, _ =>
    ⟨t, [], K, V, rfl, by simpa using inv, rfl, fun _ _ => ⟨rfl, rfl⟩, rfl, fun _ _ _ => ⟨rfl, rfl, rfl⟩⟩
  | x :: rest, n + 1, t, ys, q, K, V, inv, hs, hr, hys, hn => by
    obtain ⟨hlx, hkx, hvx⟩ := hr x (by simp)
    obtain ⟨sk', hc, hk'⟩ := cloneFrom_ok (junk := junk) (t := t) hlx hkx
    have hnx : w.lh.nx x = rest.head? := by have := hs.2.1; simpa using this
    -- the world after cloning and linking
    obtain ⟨t2, h2, hlink, hpv, hnx2, hlive, hfr, hends1, hends2⟩ : ∃ t2, copyLink { t with
        lh := { live := upd t.lh.live t.fresh true, pv := upd t.lh.pv t.fresh junk, nx := upd t.lh.nx t.fresh none }
        hp := upd t.hp t.fresh none
        hn := upd t.hn t.fresh none
        hk := upd t.hk t.fresh (w.hk x)
        ik := upd t.ik t.fresh (w.ik x)
        sk := upd t.sk t.fresh sk'
        val := upd t.val t.fresh (w.val x)
        fresh := t.fresh + 1 } t.fresh = .ok t2 ∧
        (t2.hp = upd t.hp t.fresh none ∧ t2.hk = upd t.hk t.fresh (w.hk x) ∧ t2.ik = upd t.ik t.fresh (w.ik x) ∧
          t2.sk = upd t.sk t.fresh sk' ∧ t2.val = upd t.val t.fresh (w.val x) ∧ t2.tbl = t.tbl ∧ t2.num = t.num) ∧
        t2.lh.pv = upd t.lh.pv t.fresh (if ys = [] then junk else ys.getLast?) ∧
        t2.lh.nx = updLast (upd t.lh.nx t.fresh none) ys (some t.fresh) ∧ t2.lh.live = upd t.lh.live t.fresh true ∧
        t2.fresh = t.fresh + 1 ∧ t2.ends.first = (ys ++ [t.fresh]).head? ∧ t2.ends.last = some t.fresh := by
      rcases List.eq_nil_or_concat ys with e | ⟨ys', l, e⟩
      · subst e
        have : t.ends.first = none := by rw [inv.first]; rfl
        refine ⟨_, copyLink_nil this, ⟨rfl, rfl, rfl, rfl, rfl, rfl, rfl⟩, by simp, by simp [updLast], rfl, rfl, rfl, rfl⟩
      · obtain ⟨f, hf⟩ : ∃ f, t.ends.first = some f := by
          rw [inv.first, e]
          cases ys' <;> simp
        have hl : t.ends.last = some l := by rw [inv.last, e]; simp
        have hll := (inv.ok l (by simp [e])).1
        have hlf : l ≠ t.fresh := by have := hys l (by simp [e]); omega
        refine ⟨_, copyLink_cons hf hl (by simp) (by simp [upd_other _ _ hlf, hll]), ⟨rfl, rfl, rfl, rfl, rfl, rfl, rfl⟩, ?_, ?_, rfl, rfl, ?_, rfl⟩
        · simp only [e]
          rw [if_neg (by simp)]
          simp only [List.concat_eq_append, List.getLast?_append_cons, List.getLast?_singleton]
          funext z
          by_cases hz : z = t.fresh
          · simp [hz]
          · simp [upd_other _ _ hz]
        · simp [e, updLast]
        · show some f = _
          rw [← hf, inv.first, e]
          cases ys' <;> simp
    obtain ⟨hhp, hhk, hik, hsk, hval, htbl, hnum⟩ := hlink
    have hl2 : t2.lh.live t.fresh = true := by rw [hlive]; simp
    have h3 := copyHash_ok hl2 (htbl.trans inv.tbl) hpos
    have hfy : t.fresh ∉ ys := fun h => by have := hys _ h; omega
    have hne : ∀ {y : Nat}, y < t.fresh → y ≠ t.fresh := fun h => by omega
    have same : ∀ {y : Nat}, y < t.fresh → y ∉ ys → t2.lh.live y = t.lh.live y ∧ t2.lh.pv y = t.lh.pv y ∧ t2.lh.nx y = t.lh.nx y := by
      intro y hy hny
      rw [hlive, hpv, hnx2, updLast_other hny]
      simp [upd_other _ _ (hne hy)]
    have node : ∀ {y : Nat}, y < t.fresh → t2.ik y = t.ik y ∧ t2.sk y = t.sk y ∧ t2.val y = t.val y ∧ t2.lh.live y = t.lh.live y := by
      intro y hy
      rw [hik, hsk, hval, hlive]
      simp [upd_other _ _ (hne hy)]
    have inv' : CopyInv junk { t2 with hn := upd t2.hn t.fresh none } (ys ++ [t.fresh]) len (upd K t.fresh (KS x)) (upd V t.fresh (VS x)) := by
      refine ⟨?_, hends1, by simp [hends2], ?_, htbl.trans inv.tbl, ?_⟩
      · show Seg t2.lh.pv t2.lh.nx _ _ _
        rw [hpv, hnx2]
        refine (seg_append _ _ _ _ _ _).2 ⟨?_, ?_, ?_, trivial⟩
        · have := seg_last (some t.fresh) inv.seg inv.nodup
          refine seg_congr (fun y hy => ⟨upd_other _ _ (ne_of_mem hy hfy), ?_⟩) this
          unfold updLast
          cases ys.getLast? with
          | none => exact upd_other _ _ (ne_of_mem hy hfy)
          | some l =>
            by_cases e : y = l
            · simp [e]
            · simp [upd_other _ _ e, upd_other _ _ (ne_of_mem hy hfy)]
        · simp only [upd_same]
          cases hg : ys.getLast? with
          | none => simp [List.getLast?_eq_none_iff.1 hg]
          | some l =>
            have : ys ≠ [] := fun h => by simp [h] at hg
            simp [this]
        · rw [updLast_other hfy]; simp
      · exact List.nodup_append.2 ⟨inv.nodup, by simp, fun a ha b hb => by
          simp only [List.mem_singleton] at hb
          rw [hb]; exact ne_of_mem ha hfy⟩
      · intro y hy
        show t2.lh.live y = true ∧ KeyRep (t2.ik y) (t2.sk y) _ ∧ t2.val y = _
        rcases List.mem_append.1 hy with hy | hy
        · have hyf := hys y hy
          obtain ⟨a, b, c, d⟩ := node hyf
          rw [a, b, c, d, upd_other _ _ (hne hyf), upd_other _ _ (hne hyf)]
          exact inv.ok y hy
        · simp only [List.mem_singleton] at hy
          rw [hy, hik, hsk, hval]
          simp only [upd_same]
          exact ⟨hl2, hk', hvx⟩
    obtain ⟨t', zs, K', V', g1, g2, g3, g4, g6, g7⟩ := assignLoop_ok (junk := junk) hpos w KS VS rest n
      { t2 with hn := upd t2.hn t.fresh none } (ys ++ [t.fresh]) (some x) (upd K t.fresh (KS x)) (upd V t.fresh (VS x)) inv'
      hs.2.2 (fun y hy => hr y (by simp [hy]))
      (fun y hy => by
        show y < t2.fresh
        rw [hfr]
        rcases List.mem_append.1 hy with hy | hy
        · have := hys y hy; omega
        · simp only [List.mem_singleton] at hy; omega)
      (by simp only [List.length_cons] at hn; omega)
    refine ⟨t', t.fresh :: zs, K', V', ?_, by simpa using g2, ?_, ?_, ?_, ?_⟩
    · simp only [List.head?_cons, assignLoop, hc, ok_bind, h2, h3, getNx, hlx, if_true, hnx]
      exact g1
    · simp only [List.map_cons]
      obtain ⟨a, b⟩ := g4 t.fresh (by show t.fresh < t2.fresh; omega)
      rw [a, b, upd_same, upd_same, g3]
    · intro y hy
      obtain ⟨a, b⟩ := g4 y (by show y < t2.fresh; omega)
      rw [a, b]
      simp [upd_other _ _ (hne hy)]
    · rw [g6]
      show t2.fresh + _ = _
      rw [hfr]; simp; omega
    · intro y hy hny
      obtain ⟨a, b, c⟩ := g7 y (by show y < t2.fresh; omega) (by
        simp only [List.mem_append, List.mem_singleton, not_or]
        exact ⟨hny, hne hy⟩)
      obtain ⟨a', b', c'⟩ := same hy hny
      exact ⟨a.trans a', b.trans b', c.trans c'⟩

/-- Assigning, when both hashes are as they should be. -/
theorem assign_ok {hf hf' : List UInt8 → Nat} {w t : W α} {s u : S α} (hw : R hf w s) (ht : R hf' t u) (junk : Option Nat) :
    ∃ c zs K' V', assign junk t w = .ok c ∧ CopyInv junk c zs w.tbl.length K' V' ∧
      zs.map (fun z => (K' z, V' z)) = s.seq.map (fun x => (s.key x, s.val x)) ∧ c.num = w.num ∧ c.fresh = t.fresh + s.seq.length ∧
      ∀ x, x < t.fresh → (c.lh.live x = true ↔ x ∈ u.loose) ∧ c.lh.pv x = t.lh.pv x ∧ c.lh.nx x = t.lh.nx x := by
  obtain ⟨lv, h1, h2⟩ := emptyLoop_ok u.seq (t.fresh + 1) t none ht.chain.seg ht.chain.live ht.chain.nodup
    (by have := ht.core.length_le; omega)
  obtain ⟨c, zs, K', V', g1, g2, g3, g4, g5, g6⟩ := assignLoop_ok (junk := junk) hw.pos w s.key s.val s.seq (w.fresh + 1)
    { t with lh := { t.lh with live := lv }, tbl := List.replicate w.tbl.length none, ends := ⟨none, none⟩ } [] none (fun _ => .int 0) s.val
    ⟨trivial, rfl, rfl, List.nodup_nil, rfl, by simp⟩ hw.chain.seg hw.node (by simp) (by have := hw.core.length_le; omega)
  simp only [List.nil_append] at g2
  refine ⟨{ c with npp := w.npp, num := w.num }, zs, K', V', ?_, ⟨g2.seg, g2.first, g2.last, g2.nodup, g2.tbl, g2.ok⟩, g3, rfl, g5, ?_⟩
  · unfold assign
    rw [ht.chain.first, h1, ok_bind, hw.chain.first, g1]; rfl
  · intro x hx
    obtain ⟨a, b, d⟩ := g6 x hx (by simp)
    refine ⟨?_, b, d⟩
    rw [a]
    show lv x = true ↔ _
    rw [h2]
    constructor
    · rintro ⟨k1, k2⟩; exact (ht.own k1).resolve_left k2
    · exact fun k => ⟨(ht.looseOk k).1, fun e => ht.looseDisj e k⟩

/-- C21 (partial): Assigning any hash reached by a legal history to any other is done without undefined behaviour; then the
target counts as many nodes as the source and walking it forward shows the keys and values of the source in the same order.
The old nodes of the target are deleted, its loose nodes are as they were.

Missing, because the code does not do it: as for `copy_forward_partial`. -/
theorem assign_forward_partial (hf hf' : List UInt8 → Nat) (dflt : α) (n m : Nat) (hn : 1 ≤ n) (hm : 1 ≤ m) (ops ops' : List (Op α))
    (rs rs' : List Ret) (s u : S α) (hs : Spec.run (S.empty dflt) ops = some (rs, s)) (hu : Spec.run (S.empty dflt) ops' = some (rs', u))
    (w t : W α) (hw : run hf (construct dflt n) ops = .ok (rs, w)) (ht : run hf' (construct dflt m) ops' = .ok (rs', t)) (junk : Option Nat) :
    ∃ c es, assign junk t w = .ok c ∧ forward c = .ok es ∧ es.map (fun e => e.2) = (entries s).map (fun e => e.2) ∧ c.num = w.num ∧
      ∀ x, x < t.fresh → (c.lh.live x = true ↔ x ∈ u.loose) ∧ c.lh.pv x = t.lh.pv x ∧ c.lh.nx x = t.lh.nx x := by
  obtain ⟨w0, h1, h2⟩ := run_refines (R.construct hf dflt (n := n) (by omega)) hs
  rw [hw] at h1
  cases h1
  obtain ⟨t0, h3, h4⟩ := run_refines (R.construct hf' dflt (n := m) (by omega)) hu
  rw [ht] at h3
  cases h3
  obtain ⟨c, zs, K', V', g1, g2, g3, g4, g5, g7⟩ := assign_ok h2 h4 junk
  have hlen : zs.length = s.seq.length := by simpa using congrArg List.length g3
  refine ⟨c, zs.map (fun z => (z, K' z, V' z)), g1, ?_, ?_, g4, g7⟩
  · unfold forward
    rw [g2.first]
    exact walkNext_ok zs _ junk g2.seg g2.ok (by omega)
  · simp only [entries, List.map_map, Function.comp_def]
    exact g3

/-- C21 fails: on the target of any assignment `Find` gives NULL for every key. -/
theorem assign_find_null (hf hf' : List UInt8 → Nat) (dflt : α) (n m : Nat) (hn : 1 ≤ n) (hm : 1 ≤ m) (ops ops' : List (Op α))
    (rs rs' : List Ret) (s u : S α) (hs : Spec.run (S.empty dflt) ops = some (rs, s)) (hu : Spec.run (S.empty dflt) ops' = some (rs', u))
    (w t : W α) (hw : run hf (construct dflt n) ops = .ok (rs, w)) (ht : run hf' (construct dflt m) ops' = .ok (rs', t)) (junk : Option Nat) :
    ∃ c, assign junk t w = .ok c ∧ ∀ k, find hf c k = .ok none := by
  obtain ⟨w0, h1, h2⟩ := run_refines (R.construct hf dflt (n := n) (by omega)) hs
  rw [hw] at h1
  cases h1
  obtain ⟨t0, h3, h4⟩ := run_refines (R.construct hf' dflt (n := m) (by omega)) hu
  rw [ht] at h3
  cases h3
  obtain ⟨c, zs, K', V', g1, g2, g3, g4, g5, g7⟩ := assign_ok h2 h4 junk
  refine ⟨c, g1, fun k => ?_⟩
  have hfi : ∀ h m, findIn c h m = .ok none := by
    intro h m
    have hl : c.tbl.length ≠ 0 := by rw [g2.tbl, List.length_replicate]; have := h2.pos; omega
    have : c.tbl[h % c.tbl.length]? = some none := by
      rw [g2.tbl]; simp [Nat.mod_lt _ h2.pos]
    simp only [findIn, slot, if_neg hl, ok_bind, rd_some this, findLoop]
  cases k <;> exact hfi _ _

/-- A hash of two keys is assigned to a hash with one key and one loose node. -/
def assignRun (junk : Option Nat) : CRes (W Nat) := do
  let (_, w) ← run (fun _ => 0) (construct (0 : Nat) 5) [.insert false none (.int 7) 1, .insert false none (.str [1, 2]) 2]
  let (_, t) ← run (fun _ => 0) (construct (0 : Nat) 3) [.insert false none (.int 8) 3, .create (.int 9) 4]
  assign junk t w

example : (assignRun none).bind forward = .ok [(2, .int 7, 1), (3, .str [1, 2], 2)] ∧
    ((assignRun none).map fun c => (c.lh.live 0, c.lh.live 1, c.num)) = .ok (false, true, 2) ∧
    (assignRun none).bind (fun c => find (fun _ => 0) c (.int 7)) = .ok none ∧ (assignRun (some 9)).bind backward = .error .badPtr := by decide

end Verif.OrderedHash
