import Verif.SharedLib.Model

/-! # Property C54: shared library calls -/

namespace Verif.SharedLib

/-- Where the loader finds function `name` of library `file`: the library is opened (first `dlopen`) and has
the symbol. -/
def address (L : Loader) (file name : String) : Option Nat :=
  (L.dlopen 0 file).bind (fun m => L.dlsym m name)

/-- Full statement of C54 for one history: every call, with or without return value, invokes exactly the
function the loader finds (and none if it finds none), and the library is opened at most once. -/
def Spec54 (L : Loader) (file : String) (names : List String) (ops : List Op) : Prop :=
  ∃ rs w, run L (fresh file names) ops = some (rs, w) ∧
    rs = ops.map (fun op => (names[op.func]?).bind (address L file)) ∧ w.mod.opens ≤ 1

/-- Loader state invariant. -/
def Inv (L : Loader) (file : String) (names : List String) (w : World) : Prop :=
  ((w.mod.filename = some file ∧ w.mod.modulePtr = none ∧ w.mod.opens = 0) ∨
   (w.mod.filename = none ∧ w.mod.modulePtr = L.dlopen 0 file ∧ w.mod.opens = 1)) ∧
  w.funcs.length = names.length ∧
  ∀ (i : Nat) (f : Func) (n : String), w.funcs[i]? = some f → names[i]? = some n →
    (f.funcName = some n ∧ f.funcPtr = none) ∨ (f.funcName = none ∧ f.funcPtr = address L file n)

theorem inv_fresh (L : Loader) (file : String) (names : List String) : Inv L file names (fresh file names) := by
  refine ⟨Or.inl ⟨rfl, rfl, rfl⟩, by simp [fresh], ?_⟩
  intro i f n h1 h2
  simp [fresh, h2] at h1
  subst h1
  exact Or.inl ⟨rfl, rfl⟩

theorem load_spec (L : Loader) (file : String) (m : Module)
    (h : (m.filename = some file ∧ m.modulePtr = none ∧ m.opens = 0) ∨
      (m.filename = none ∧ m.modulePtr = L.dlopen 0 file ∧ m.opens = 1)) :
    (load L m).1 = L.dlopen 0 file ∧ ((load L m).2.filename = none ∧
      (load L m).2.modulePtr = L.dlopen 0 file ∧ (load L m).2.opens = 1) := by
  unfold load
  rcases h with ⟨h1, h2, h3⟩ | ⟨h1, h2, h3⟩
  · rw [h2]; simp only [h1]; rw [h3]; simp
  · rw [h2]
    cases hd : L.dlopen 0 file with
    | none => simp only [h1]; rw [h2, hd]; simp [h1, h3]
    | some p => simp [h1, h2, hd, h3]

theorem loadFuncPtr_spec (L : Loader) (file name : String) (m : Module) (f : Func)
    (h : (m.filename = some file ∧ m.modulePtr = none ∧ m.opens = 0) ∨
      (m.filename = none ∧ m.modulePtr = L.dlopen 0 file ∧ m.opens = 1))
    (hf : f.funcName = some name ∧ f.funcPtr = none) :
    (loadFuncPtr L m f).1 = address L file name ∧
    ((loadFuncPtr L m f).2.1.filename = none ∧
      (loadFuncPtr L m f).2.1.modulePtr = L.dlopen 0 file ∧ (loadFuncPtr L m f).2.1.opens = 1) ∧
    (loadFuncPtr L m f).2.2.funcName = none ∧ (loadFuncPtr L m f).2.2.funcPtr = address L file name := by
  obtain ⟨h1, h2⟩ := load_spec L file m h
  unfold loadFuncPtr
  rw [hf.1]
  simp only
  generalize hl : load L m = r at h1 h2
  obtain ⟨r1, r2⟩ := r
  simp only at h1 h2
  unfold address
  cases r1 with
  | none => simp only; rw [← h1] at h2 ⊢; simp [h2, hf.2]
  | some p => simp only; rw [← h1] at h2 ⊢; simp [h2]

theorem step_inv (L : Loader) (file : String) (names : List String) (w : World) (op : Op)
    (h : Inv L file names w) (hop : op.func < names.length) :
    ∃ r w', step L w op = some (r, w') ∧ Inv L file names w' ∧
      r = if op.void then none else (names[op.func]?).bind (address L file) := by
  obtain ⟨hm, hl, hf⟩ := h
  have hn : names[op.func]? = some names[op.func] := List.getElem?_eq_getElem hop
  have hw : w.funcs[op.func]? = some (w.funcs[op.func]'(by omega)) := List.getElem?_eq_getElem _
  generalize names[op.func] = n at hn
  generalize (w.funcs[op.func]'(by omega)) = f at hw
  have hfn := hf op.func f n hw hn
  unfold step
  rw [hw, hn]
  simp only [Option.bind_some]
  -- a function whose state is unchanged or freshly loaded keeps the invariant
  have hset : ∀ (m' : Module) (f' : Func), ((m'.filename = some file ∧ m'.modulePtr = none ∧ m'.opens = 0) ∨
      (m'.filename = none ∧ m'.modulePtr = L.dlopen 0 file ∧ m'.opens = 1)) →
      ((f'.funcName = some n ∧ f'.funcPtr = none) ∨
        (f'.funcName = none ∧ f'.funcPtr = address L file n)) →
      Inv L file names { mod := m', funcs := w.funcs.set op.func f' } := by
    intro m' f' hm' hf'
    refine ⟨hm', by simp [hl], ?_⟩
    intro i g k h1 h2
    simp only [List.getElem?_set] at h1
    by_cases hi : op.func = i
    · subst hi
      rw [hn] at h2; cases h2
      rw [if_pos rfl, if_pos (by omega)] at h1
      cases h1
      exact hf'
    · rw [if_neg hi] at h1
      exact hf i g k h1 h2
  cases hv : op.void with
  | true =>
    simp only [if_true]
    rcases hfn with ⟨h1, h2⟩ | ⟨h1, h2⟩
    · have : callVoid L w.mod f = (none, w.mod, f) := by unfold callVoid; rw [h2]
      rw [this]
      exact ⟨none, _, rfl, hset _ _ hm (Or.inl ⟨h1, h2⟩), rfl⟩
    · have : callVoid L w.mod f = (none, w.mod, f) := by
        unfold callVoid
        cases f.funcPtr with
        | none => rfl
        | some p => simp only; unfold loadFuncPtr; rw [h1]
      rw [this]
      exact ⟨none, _, rfl, hset _ _ hm (Or.inr ⟨h1, h2⟩), rfl⟩
  | false =>
    simp only [Bool.false_eq_true, if_false]
    rcases hfn with ⟨h1, h2⟩ | ⟨h1, h2⟩
    · obtain ⟨a1, a2, a3⟩ := loadFuncPtr_spec L file n w.mod f hm ⟨h1, h2⟩
      have : call L w.mod f = loadFuncPtr L w.mod f := by unfold call; rw [h2]
      rw [this]
      exact ⟨_, _, rfl, hset _ _ (Or.inr a2) (Or.inr a3), a1⟩
    · cases ha : address L file n with
      | none =>
        have : call L w.mod f = (none, w.mod, f) := by
          unfold call; rw [h2, ha]; simp only; unfold loadFuncPtr; rw [h1]
        rw [this]
        exact ⟨none, _, rfl, hset _ _ hm (Or.inr ⟨h1, h2⟩), rfl⟩
      | some p =>
        have : call L w.mod f = (some p, w.mod, f) := by
          unfold call; rw [h2, ha]
        rw [this]
        exact ⟨some p, _, rfl, hset _ _ hm (Or.inr ⟨h1, h2⟩), rfl⟩

theorem run_inv (L : Loader) (file : String) (names : List String) (ops : List Op) (w : World)
    (h : Inv L file names w) (hop : ∀ op ∈ ops, op.func < names.length) :
    ∃ w', run L w ops = some (ops.map (fun op => if op.void then none else
      (names[op.func]?).bind (address L file)), w') ∧ Inv L file names w' := by
  induction ops generalizing w with
  | nil => exact ⟨w, rfl, h⟩
  | cons op ops ih =>
    obtain ⟨r, w', h1, h2, h3⟩ := step_inv L file names w op h (hop op (by simp))
    obtain ⟨w'', h4, h5⟩ := ih w' h2 (fun o ho => hop o (by simp [ho]))
    refine ⟨w'', ?_, h5⟩
    rw [run, h1]
    simp only [Option.bind_eq_bind, Option.bind_some]
    rw [h4, h3]
    rfl

/-- **C54 (partial).**  For every loader, library and set of functions, and every history mixing calls with and
without return value: each call *with* return value invokes exactly the function the loader finds, on the
first and on every later call, and the library is opened at most once in the whole history.
Missing: calls without return value, which never invoke anything, see `callVoid_never_invokes`. -/
theorem call_reaches_function_partial (L : Loader) (file : String) (names : List String) (ops : List Op)
    (hop : ∀ op ∈ ops, op.func < names.length) :
    ∃ rs w, run L (fresh file names) ops = some (rs, w) ∧ w.mod.opens ≤ 1 ∧
      ∀ (i : Nat) (op : Op), ops[i]? = some op → op.void = false →
        rs[i]? = some ((names[op.func]?).bind (address L file)) := by
  obtain ⟨w, h1, h2⟩ := run_inv L file names ops _ (inv_fresh L file names) hop
  refine ⟨_, w, h1, ?_, ?_⟩
  · rcases h2.1 with h | h <;> omega
  · intro i op hi hv
    simp [hi, hv]

/-- **C54, negation.**  A call without return value never invokes the function, whatever happened before and
whatever the loader answers. -/
theorem callVoid_never_invokes (L : Loader) (file : String) (names : List String) (ops : List Op)
    (hop : ∀ op ∈ ops, op.func < names.length) :
    ∃ rs w, run L (fresh file names) ops = some (rs, w) ∧
      ∀ (i : Nat) (op : Op), ops[i]? = some op → op.void = true → rs[i]? = some none := by
  obtain ⟨w, h1, -⟩ := run_inv L file names ops _ (inv_fresh L file names) hop
  exact ⟨_, w, h1, fun i op hi hv => by simp [hi, hv]⟩

/-- A loader that finds everything. -/
def allFound : Loader := { dlopen := fun _ _ => some 1, dlsym := fun _ name => some name.length }

/-- Two functions of one library, called alternately, both reached. -/
example : run allFound (fresh "libm.so" ["sin", "sqrt"]) [⟨0, false⟩, ⟨1, false⟩, ⟨0, false⟩] =
    some ([some 3, some 4, some 3],
      { mod := { filename := none, modulePtr := some 1, opens := 1 }
        funcs := [{ funcName := none, funcPtr := some 3 }, { funcName := none, funcPtr := some 4 }] }) := by
  decide

/-- Hence the full claim fails even where the loader finds everything. -/
theorem callVoid_spec_fails : ¬ Spec54 allFound "libm.so" ["sin"] [⟨0, true⟩] := by
  rintro ⟨rs, w, h1, h2, -⟩
  have : run allFound (fresh "libm.so" ["sin"]) [⟨0, true⟩] =
      some ([none], fresh "libm.so" ["sin"]) := by decide
  rw [this] at h1
  cases h1
  revert h2
  decide

/-- The one-shot variants invoke exactly what the loader finds. -/
theorem callOnce_reaches (L : Loader) (n : Nat) (file name : String) :
    callOnce L n file name = (L.dlopen n file).bind (fun m => L.dlsym m name) := by
  unfold callOnce; cases L.dlopen n file <;> rfl

end Verif.SharedLib
