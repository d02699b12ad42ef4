import Verif.Model.CInt
import Verif.Props.Eaf2d
import Mathlib.Tactic.Linarith
import Mathlib.Tactic.Ring
import Mathlib.Tactic.NormNum
import Mathlib.Algebra.BigOperators.Group.List.Basic
import Mathlib.Data.List.Range

/-!
# C113: sizes of blocks and subscripts without integer overflow
-/

set_option autoImplicit false
set_option linter.unusedSectionVars false

namespace Moo

/-- Specification: the mathematical value of an expression. -/
def CExpr.exact (env : String → ℤ) : CExpr → ℤ
  | .lit z => z
  | .ivar x => env x
  | .zvar x => env x
  | .sizeof b => b
  | .bin .add a b => a.exact env + b.exact env
  | .bin .sub a b => a.exact env - b.exact env
  | .bin .mul a b => a.exact env * b.exact env

theorem cint_some {z : ℤ} (h0 : -2 ^ 31 ≤ z) (h1 : z < 2 ^ 31) : cint z = some z := if_pos ⟨h0, h1⟩

theorem cint_none {z : ℤ} (h : 2 ^ 31 ≤ z) : cint z = none := if_neg fun h' => absurd h'.2 (not_lt.2 h)

theorem cint_nat {a : ℕ} (h : a < 2 ^ 31) : cint (a : ℤ) = some (a : ℤ) :=
  cint_some (by linarith [Int.natCast_nonneg a]) (by exact_mod_cast h)

theorem cint_nat_none {a : ℕ} (h : 2 ^ 31 ≤ a) : cint (a : ℤ) = none := cint_none (by exact_mod_cast h)

theorem eval_int {env : String → ℤ} {op : COp} {a b : CExpr} {x y : ℤ} (ha : a.ty = .int) (hb : b.ty = .int) (hx : a.eval env = some x) (hy : b.eval env = some y) :
    (CExpr.bin op a b).eval env = cint (op.app x y) := by
  simp [CExpr.eval, hx, hy, ha, hb]

theorem eval_size {env : String → ℤ} {op : COp} {a b : CExpr} {x y : ℤ} (h : ¬ (a.ty = .int ∧ b.ty = .int)) (hx : a.eval env = some x) (hy : b.eval env = some y) :
    (CExpr.bin op a b).eval env = some (op.app (x % 2 ^ 64) (y % 2 ^ 64) % 2 ^ 64) := by
  simp only [CExpr.eval, hx, hy, Option.bind_eq_bind, Option.bind_some, if_neg h]

theorem eval_size_exact {env : String → ℤ} {op : COp} {a b : CExpr} {x y : ℤ} (h : ¬ (a.ty = .int ∧ b.ty = .int)) (hx : a.eval env = some x) (hy : b.eval env = some y)
    (hx0 : 0 ≤ x) (hx1 : x < 2 ^ 64) (hy0 : 0 ≤ y) (hy1 : y < 2 ^ 64) (hr0 : 0 ≤ op.app x y) (hr1 : op.app x y < 2 ^ 64) :
    (CExpr.bin op a b).eval env = some (op.app x y) := by
  rw [eval_size h hx hy, Int.emod_eq_of_lt hx0 hx1, Int.emod_eq_of_lt hy0 hy1, Int.emod_eq_of_lt hr0 hr1]

section

variable (env : String → ℤ)

theorem cn1_eval (h0 : 0 ≤ env "n") (h1 : env "n" + 1 < 2 ^ 31) : cn1.eval env = some (env "n" + 1) := by
  unfold cn1 cadd
  rw [eval_int (x := env "n") (y := 1) rfl rfl rfl rfl]
  exact cint_some (by show _ ≤ env "n" + 1; linarith) h1

/-- **C113.**  The blocks of the hypervolume for three or more objectives have the sizes they should have, without an overflow, exactly if
`d * (n + 1) < 2 ^ 31`, for `d` objectives and `n` points. -/
theorem C113_hv (hd : 1 ≤ env "d") (hn : 0 ≤ env "n") (hn' : env "n" < 2 ^ 31) :
    (∀ e ∈ hvAllocs, e.eval env = some (e.exact env)) ↔ env "d" * (env "n" + 1) < 2 ^ 31 := by
  constructor
  · intro h
    by_contra hc
    rw [not_lt] at hc
    have h2 := h (cmul (cmul (.ivar "d") cn1) (.sizeof 8)) (by simp [hvAllocs])
    by_cases h1 : env "n" + 1 < 2 ^ 31
    · have e1 := cn1_eval env hn h1
      have e2 : (cmul (.ivar "d") cn1).eval env = none := by
        unfold cmul
        rw [eval_int (x := env "d") (y := env "n" + 1) rfl rfl rfl e1]
        exact cint_none hc
      rw [cmul, CExpr.eval, e2] at h2
      cases h2
    · have e1 : cn1.eval env = none := by
        unfold cn1 cadd
        rw [eval_int (x := env "n") (y := 1) rfl rfl rfl rfl]
        exact cint_none (not_lt.1 h1)
      have e2 : (cmul (.ivar "d") cn1).eval env = none := by
        simp [cmul, CExpr.eval, e1]
      rw [cmul, CExpr.eval, e2] at h2
      cases h2
  · intro h
    have h1 : env "n" + 1 < 2 ^ 31 := by nlinarith
    have e1 := cn1_eval env hn h1
    have hp : 0 ≤ env "d" * (env "n" + 1) := by nlinarith
    have e2 : (cmul (.ivar "d") cn1).eval env = some (env "d" * (env "n" + 1)) := by
      unfold cmul
      rw [eval_int (x := env "d") (y := env "n" + 1) rfl rfl rfl e1]
      exact cint_some (by show _ ≤ env "d" * (env "n" + 1); linarith) h
    have k : ∀ (a : CExpr) (b : ℕ) (x : ℤ), b ≤ 56 → a.eval env = some x → 0 ≤ x → x < 2 ^ 31 → (cmul a (.sizeof b)).eval env = some (x * b) := by
      intro a b x hb ha hx0 hx1
      have hb0 : (0 : ℤ) ≤ b := by positivity
      have hb1 : (b : ℤ) ≤ 56 := by exact_mod_cast hb
      unfold cmul
      exact eval_size_exact (x := x) (y := b) (fun h => by cases h.2) ha rfl hx0 (by linarith) hb0 (by linarith) (mul_nonneg hx0 hb0)
        (by show x * b < 2 ^ 64; nlinarith)
    intro e he
    simp only [hvAllocs, List.mem_cons, List.not_mem_nil, or_false] at he
    rcases he with rfl | rfl | rfl | rfl | rfl | rfl | rfl
    · rw [k _ _ _ (by norm_num) e1 (by linarith) h1]; rfl
    · rw [k _ _ _ (by norm_num) e2 hp h]; rfl
    · rw [k _ _ _ (by norm_num) e2 hp h]; rfl
    · rw [k _ _ _ (by norm_num) e1 (by linarith) h1]; rfl
    · rw [k _ _ _ (by norm_num) e2 hp h]; rfl
    · rw [k _ _ _ (by norm_num) e2 hp h]; rfl
    · rw [k _ _ (env "n") (by norm_num) rfl hn hn']; rfl

end

/-- The environment that gives the names their values. -/
def cenv (l : List (String × ℤ)) (x : String) : ℤ := (l.lookup x).getD 0

/-- **C113.**  Two objectives: the pointers to all rows are computed without overflow exactly if there are at most `2 ^ 30` points. -/
theorem C113_hv2d (n : ℤ) (h0 : 0 ≤ n) (h1 : n < 2 ^ 31) :
    (hv2dAlloc.eval (cenv [("n", n)]) = some (8 * n)) ∧
    ((∀ k, 0 ≤ k → k < n → hv2dIndex.eval (cenv [("k", k)]) = some (2 * k)) ↔ n ≤ 2 ^ 30) := by
  refine ⟨?_, ?_⟩
  · unfold hv2dAlloc cmul
    rw [eval_size_exact (x := n) (y := 8) (fun h => by cases h.2) rfl rfl h0 (by linarith) (by norm_num) (by norm_num) (by show 0 ≤ n * 8; linarith)
      (by show n * 8 < 2 ^ 64; linarith)]
    show some (n * 8) = _
    rw [mul_comm]
  · have e : ∀ k : ℤ, hv2dIndex.eval (cenv [("k", k)]) = cint (2 * k) := fun k => eval_int (x := 2) (y := k) rfl rfl rfl rfl
    simp only [e]
    constructor
    · intro h
      by_contra hc
      have := h (n - 1) (by linarith) (by linarith)
      rw [cint_none (by linarith)] at this
      cases this
    · intro h k hk0 hk1
      exact cint_some (by linarith) (by linarith)

/-- **C113.**  The subscript of objective `d` of row `i` is computed without an overflow for all elements of a matrix of `size` rows and `dim` columns
exactly if the matrix has at most `2 ^ 31` elements.  (The same holds for the beginnings of the rows, see `C113_row_start`.) -/
theorem C113_row_index (size dim : ℤ) (hs : 0 < size) (hd : 0 < dim) :
    (∀ i d, 0 ≤ i → i < size → 0 ≤ d → d < dim → rowIndex.eval (cenv [("i", i), ("dim", dim), ("d", d)]) = some (i * dim + d)) ↔ size * dim ≤ 2 ^ 31 := by
  have e1 : ∀ i d : ℤ, (cmul (.ivar "i") (.ivar "dim")).eval (cenv [("i", i), ("dim", dim), ("d", d)]) = cint (i * dim) := fun i d =>
    eval_int (x := i) (y := dim) rfl rfl rfl rfl
  constructor
  · intro h
    by_contra hc
    have := h (size - 1) (dim - 1) (by linarith) (by linarith) (by linarith) (by linarith)
    unfold rowIndex cadd at this
    by_cases h1 : (size - 1) * dim < 2 ^ 31
    · rw [eval_int (x := (size - 1) * dim) (y := dim - 1) rfl rfl ((e1 _ _).trans (cint_some (by nlinarith) h1)) rfl] at this
      rw [show COp.add.app ((size - 1) * dim) (dim - 1) = size * dim - 1 from by show (size - 1) * dim + (dim - 1) = _; ring, cint_none (by linarith)] at this
      cases this
    · rw [CExpr.eval, e1, cint_none (not_lt.1 h1)] at this
      cases this
  · intro h i d hi0 hi1 hd0 hd1
    have hle : i * dim + d < 2 ^ 31 := by nlinarith
    have hp : 0 ≤ i * dim := mul_nonneg hi0 hd.le
    unfold rowIndex cadd
    rw [eval_int (x := i * dim) (y := d) rfl rfl ((e1 i d).trans (cint_some (by linarith) (by linarith))) rfl]
    exact cint_some (by show _ ≤ i * dim + d; linarith) hle

/-- **C113.**  The beginnings of the rows. -/
theorem C113_row_start (size dim : ℤ) (hd : 0 < dim) (h : size * dim ≤ 2 ^ 31) (i : ℤ) (hi0 : 0 ≤ i) (hi1 : i < size) :
    rowStart.eval (cenv [("i", i), ("dim", dim)]) = some (i * dim) := by
  unfold rowStart cmul
  rw [eval_int (x := i) (y := dim) rfl rfl rfl rfl]
  have : 0 ≤ i * dim := mul_nonneg hi0 hd.le
  exact cint_some (by show _ ≤ i * dim; linarith) (by show i * dim < 2 ^ 31; nlinarith)

/-- **C113.**  With `size_t` variables (`shift_reference`) there is no such limit: any matrix of less than `2 ^ 64` elements. -/
theorem C113_shift_index (size dim : ℤ) (hd : 0 < dim) (h : size * dim < 2 ^ 64) (i d : ℤ) (hi0 : 0 ≤ i) (hi1 : i < size) (hd0 : 0 ≤ d) (hd1 : d < dim) :
    shiftIndex.eval (cenv [("i", i), ("dim", dim), ("d", d)]) = some (i * dim + d) := by
  have hp : 0 ≤ i * dim := mul_nonneg hi0 hd.le
  have hle : i * dim + d < 2 ^ 64 := by nlinarith
  have hs : size ≤ size * dim := by nlinarith
  have hdm : dim ≤ size * dim := by nlinarith
  have e1 : (cmul (.zvar "i") (.zvar "dim")).eval (cenv [("i", i), ("dim", dim), ("d", d)]) = some (i * dim) :=
    eval_size_exact (x := i) (y := dim) (fun h => by cases h.2) rfl rfl hi0 (by linarith) hd.le (by linarith) hp (by show i * dim < 2 ^ 64; linarith)
  unfold shiftIndex cadd
  exact eval_size_exact (x := i * dim) (y := d) (fun h => by cases h.2) e1 rfl hp (by linarith) hd0 (by linarith) (by show 0 ≤ i * dim + d; linarith) hle

/-- **C113.**  The sizes of the blocks for matrices of doubles, in bytes, for all numbers of rows and columns of type `int` whose product with 8 is less than `2 ^ 64`. -/
theorem C113_matrix_alloc (size dim : ℤ) (hs : 0 ≤ size) (hs' : size < 2 ^ 31) (hd : 0 ≤ dim) (hd' : dim < 2 ^ 31) (h : 8 * size * dim < 2 ^ 64) :
    matrixAlloc.eval (cenv [("size", size), ("dim", dim)]) = some (8 * size * dim) := by
  have e1 : (cmul (.sizeof 8) (.ivar "size")).eval (cenv [("size", size), ("dim", dim)]) = some (8 * size) :=
    eval_size_exact (x := 8) (y := size) (fun h => by cases h.1) rfl rfl (by norm_num) (by norm_num) hs (by linarith) (by show 0 ≤ 8 * size; linarith)
      (by show 8 * size < 2 ^ 64; linarith)
  unfold matrixAlloc
  exact eval_size_exact (x := 8 * size) (y := dim) (fun h => by cases h.1) e1 rfl (by linarith) (by linarith) hd (by linarith) (by show 0 ≤ 8 * size * dim; positivity) h

/-! ### The matrix of the EAF -/

theorem wrapInt_id {z : ℤ} (h0 : 0 ≤ z) (h1 : z < 2 ^ 31) : wrapInt z = z := by
  unfold wrapInt
  rw [Int.emod_eq_of_lt (by linarith) (by linarith)]
  ring

theorem eafTotalInt_aux (sizes : List ℕ) (hs : ∀ s ∈ sizes, s < 2 ^ 31) : ∀ acc : ℕ, acc < 2 ^ 31 →
    sizes.foldlM (fun total (s : ℕ) => cint (total + wrapInt s)) (acc : ℤ) = if acc + sizes.sum < 2 ^ 31 then some ((acc + sizes.sum : ℕ) : ℤ) else none := by
  induction sizes with
  | nil =>
    intro acc h
    rw [List.sum_nil, add_zero, if_pos h]
    rfl
  | cons s rest ih =>
    intro acc h
    have hs0 := hs s (List.mem_cons_self ..)
    have hw : wrapInt (s : ℤ) = s := wrapInt_id (by positivity) (by exact_mod_cast hs0)
    rw [List.foldlM_cons, hw]
    by_cases hsum : acc + s < 2 ^ 31
    · have : cint ((acc : ℤ) + s) = some ((acc + s : ℕ) : ℤ) := by
        rw [← Nat.cast_add, cint_nat hsum]
      rw [this]
      show List.foldlM _ ((acc + s : ℕ) : ℤ) rest = _
      rw [ih (fun t ht => hs t (List.mem_cons_of_mem _ ht)) _ hsum, List.sum_cons, add_assoc]
    · rw [cint_none (by exact_mod_cast not_lt.1 hsum), List.sum_cons, if_neg (by omega)]
      rfl

/-- **C113.**  The number of rows of the matrix of the EAF is the sum of the numbers of points of the levels exactly if that is less than `2 ^ 31`, and
overflows otherwise. -/
theorem C113_eaf_rows (sizes : List ℕ) (hs : ∀ s ∈ sizes, s < 2 ^ 31) :
    eafTotalInt sizes = if sizes.sum < 2 ^ 31 then some (sizes.sum : ℤ) else none := by
  have := eafTotalInt_aux sizes hs 0 (by norm_num)
  rw [zero_add] at this
  exact this

example : eaf2matrixIdx 2 [1, 2] = some [0, 1, 2, 3, 4, 5, 6, 7, 8] := by decide

example : eaf2matrixRIdx 2 [1, 2] = some [0, 3, 6, 1, 4, 7, 2, 5, 8] := by decide

attribute [local irreducible] cint

theorem cMapM_some {α β : Type} (f : α → Option β) (g : α → β) (l : List α) (h : ∀ a ∈ l, f a = some (g a)) : l.mapM f = some (l.map g) := by
  induction l with
  | nil => rfl
  | cons a l ih =>
    rw [List.mapM_cons, h a (List.mem_cons_self ..), ih fun b hb => h b (List.mem_cons_of_mem _ hb)]
    rfl

theorem cMapM_none {α β : Type} (f : α → Option β) (l : List α) (a : α) (ha : a ∈ l) (h : f a = none) : l.mapM f = none := by
  induction l with
  | nil => cases ha
  | cons b l ih =>
    rw [List.mapM_cons]
    rcases List.mem_cons.1 ha with rfl | h'
    · rw [h]; rfl
    · rw [ih h']
      cases f b <;> rfl

/-- The loops over levels are one loop over all points. -/
theorem idxRows_add (row : ℤ → Option (List ℤ)) (a b : ℕ) : ∀ pos, idxRows row (a + b) pos =
    (idxRows row a pos).bind fun q => (idxRows row b q.2).map fun r => (q.1 ++ r.1, r.2) := by
  induction a with
  | zero =>
    intro pos
    rw [zero_add]
    show _ = (idxRows row b pos).map _
    cases idxRows row b pos with
    | none => rfl
    | some r => rfl
  | succ a ih =>
    intro pos
    rw [show a + 1 + b = (a + b) + 1 by ring, idxRows, idxRows]
    cases row pos with
    | none => rfl
    | some r =>
      simp only [Option.bind_eq_bind, Option.bind_some]
      cases cint (pos + 1) with
      | none => rfl
      | some p =>
        simp only [Option.bind_some, ih]
        cases idxRows row a p with
        | none => rfl
        | some q =>
          simp only [Option.bind_some]
          cases idxRows row b q.2 with
          | none => rfl
          | some t => simp

theorem idxLevels_eq (row : ℤ → Option (List ℤ)) (sizes : List ℕ) : ∀ pos, idxLevels row sizes pos = (idxRows row sizes.sum pos).map Prod.fst := by
  induction sizes with
  | nil => intro pos; rfl
  | cons s rest ih =>
    intro pos
    rw [idxLevels, List.sum_cons, idxRows_add]
    simp only [Option.bind_eq_bind, ih]
    cases idxRows row s pos with
    | none => rfl
    | some q =>
      simp only [Option.bind_some]
      cases idxRows row rest.sum q.2 with
      | none => rfl
      | some r => rfl

/-- If each of the rows before `total` has subscripts, so has the loop. -/
theorem idxRows_some (row : ℤ → Option (List ℤ)) (g : ℕ → List ℤ) (n : ℕ) : ∀ p : ℕ, p + n < 2 ^ 31 → (∀ q, p ≤ q → q < p + n → row (q : ℤ) = some (g q)) →
    idxRows row n (p : ℤ) = some ((List.range' p n).flatMap g, ((p + n : ℕ) : ℤ)) := by
  induction n with
  | zero => intro p _ _; rfl
  | succ n ih =>
    intro p hp hg
    have hc : cint ((p : ℤ) + 1) = some ((p + 1 : ℕ) : ℤ) := cint_nat (a := p + 1) (by omega)
    rw [idxRows, hg p le_rfl (by omega)]
    simp only [Option.bind_eq_bind, Option.bind_some, hc]
    rw [ih (p + 1) (by omega) fun q h1 h2 => hg q (by omega) (by omega)]
    simp only [Option.bind_some, List.range'_succ, List.flatMap_cons]
    rw [show p + 1 + n = p + (n + 1) by ring]

/-- If one of the rows before `total` has none, the loop has not. -/
theorem idxRows_none (row : ℤ → Option (List ℤ)) (n : ℕ) : ∀ p q : ℕ, p ≤ q → q < p + n → row (q : ℤ) = none → idxRows row n (p : ℤ) = none := by
  induction n with
  | zero => intro p q h1 h2; omega
  | succ n ih =>
    intro p q h1 h2 hn
    rw [idxRows]
    by_cases hpq : p = q
    · subst hpq
      rw [hn, Option.bind_eq_bind, Option.bind_none]
    · cases row (p : ℤ) with
      | none => rw [Option.bind_eq_bind, Option.bind_none]
      | some r =>
        rw [Option.bind_eq_bind, Option.bind_some, ← Nat.cast_succ]
        rcases lt_or_ge p.succ (2 ^ 31) with hc | hc
        · rw [cint_nat hc, Option.bind_eq_bind, Option.bind_some, ih p.succ q (Nat.succ_le_of_lt (lt_of_le_of_ne h1 hpq)) (by omega) hn,
            Option.bind_eq_bind, Option.bind_none]
        · rw [cint_nat_none hc, Option.bind_eq_bind, Option.bind_none]

theorem natSum_ge_of_mem {s : ℕ} {l : List ℕ} (h : s ∈ l) : s ≤ l.sum := by
  induction l with
  | nil => cases h
  | cons a l ih =>
    rw [List.sum_cons]
    rcases List.mem_cons.1 h with rfl | h'
    · exact Nat.le_add_right _ _
    · exact (ih h').trans (Nat.le_add_left _ _)

theorem idxRow_elem (p m j : ℕ) (h : j + p * m < 2 ^ 31) :
    (cint ((p : ℤ) * (m : ℤ)) >>= fun r => cint ((j : ℤ) + r)) = some ((j + p * m : ℕ) : ℤ) := by
  rw [← Nat.cast_mul, cint_nat (lt_of_le_of_lt (Nat.le_add_left _ _) h)]
  rw [Option.bind_eq_bind, Option.bind_some]
  rw [← Nat.cast_add, cint_nat h]

theorem idxRow_elem_none (p m j : ℕ) (h : 2 ^ 31 ≤ j + p * m) :
    (cint ((p : ℤ) * (m : ℤ)) >>= fun r => cint ((j : ℤ) + r)) = none := by
  rw [← Nat.cast_mul]
  rcases lt_or_ge (p * m) (2 ^ 31) with hc | hc
  · rw [cint_nat hc]
    rw [Option.bind_eq_bind, Option.bind_some]
    rw [← Nat.cast_add, cint_nat_none h]
  · rw [cint_nat_none hc, Option.bind_eq_bind, Option.bind_none]

theorem idxRow_some (nobj p : ℕ) (h : (p + 1) * (nobj + 1) ≤ 2 ^ 31) :
    idxRow nobj ((nobj + 1 : ℕ) : ℤ) (p : ℤ) = some ((List.range (nobj + 1)).map fun j => ((j + p * (nobj + 1) : ℕ) : ℤ)) := by
  refine cMapM_some _ _ _ fun j hj => ?_
  have hj' := List.mem_range.1 hj
  have h2 : j + p * (nobj + 1) < (p + 1) * (nobj + 1) := by
    rw [add_mul, one_mul, add_comm]
    omega
  have h3 : j + p * (nobj + 1) < 2 ^ 31 := h2.trans_le h
  exact idxRow_elem p (nobj + 1) j h3

theorem idxRow_none (nobj p : ℕ) (h : 2 ^ 31 < (p + 1) * (nobj + 1)) : idxRow nobj ((nobj + 1 : ℕ) : ℤ) (p : ℤ) = none := by
  have h2 : (p + 1) * (nobj + 1) = nobj + p * (nobj + 1) + 1 := by ring
  rw [h2] at h
  have h3 : 2 ^ 31 ≤ nobj + p * (nobj + 1) := Nat.le_of_lt_succ h
  exact cMapM_none _ _ nobj (List.mem_range.2 (Nat.lt_succ_self _)) (idxRow_elem_none p (nobj + 1) nobj h3)

theorem flatMap_rows (m : ℕ) (n : ℕ) : ∀ p, (List.range' p n).flatMap (fun q => (List.range m).map fun j => ((j + q * m : ℕ) : ℤ)) =
    (List.range' (p * m) (n * m)).map fun k : ℕ => (k : ℤ) := by
  induction n with
  | zero => intro p; simp
  | succ n ih =>
    intro p
    rw [List.range'_succ, List.flatMap_cons, ih (p + 1), show (n + 1) * m = m + n * m by ring, ← List.range'_append_1, List.map_append]
    congr 1
    · rw [List.range'_eq_map_range, List.map_map]
      refine List.map_congr_left fun j _ => ?_
      simp only [Function.comp]
      push_cast
      ring
    · rw [show (p + 1) * m = p * m + m by ring]

/-- **C113.**  `eaf2matrix` visits the elements of the result one after the other, each once, if the result has at most `2 ^ 31` elements; otherwise a
subscript overflows. -/
theorem C113_eaf_matrix (nobj : ℕ) (hn : 1 ≤ nobj) (hn' : nobj + 1 < 2 ^ 31) (sizes : List ℕ) :
    eaf2matrixIdx nobj sizes = if sizes.sum * (nobj + 1) ≤ 2 ^ 31 then some ((List.range (sizes.sum * (nobj + 1))).map fun k : ℕ => (k : ℤ)) else none := by
  unfold eaf2matrixIdx
  have hc : cint ((nobj : ℤ) + 1) = some ((nobj + 1 : ℕ) : ℤ) := cint_nat (a := nobj + 1) hn'
  rw [hc]
  simp only [Option.bind_eq_bind, Option.bind_some]
  rw [idxLevels_eq]
  split_ifs with h
  · have hlt : 0 + sizes.sum < 2 ^ 31 := by nlinarith
    have := idxRows_some (idxRow nobj ((nobj + 1 : ℕ) : ℤ)) _ sizes.sum 0 hlt fun q _ h2 =>
      idxRow_some nobj q ((Nat.mul_le_mul_right _ (by omega)).trans h)
    rw [show ((0 : ℕ) : ℤ) = 0 from rfl] at this
    rw [this, flatMap_rows, Option.map_some, zero_mul, List.range_eq_range']
  · have hpos : 0 < sizes.sum := by
      rcases Nat.eq_zero_or_pos sizes.sum with h0 | h0
      · rw [h0] at h; simp at h
      · exact h0
    have := idxRows_none (idxRow nobj ((nobj + 1 : ℕ) : ℤ)) sizes.sum 0 (sizes.sum - 1) (by omega) (by omega)
      (idxRow_none nobj _ (by rw [Nat.sub_add_cancel hpos]; omega))
    rw [show ((0 : ℕ) : ℤ) = 0 from rfl] at this
    rw [this]
    rfl

/-- **C113.**  `eaf2matrix_R`: the columns of the result are `totalpoints` apart; element `j` of row `pos` is at `pos + j * totalpoints`. -/
theorem C113_eaf_matrix_R (nobj : ℕ) (hn : 1 ≤ nobj) (sizes : List ℕ) (h : sizes.sum * (nobj + 1) ≤ 2 ^ 31) :
    eaf2matrixRIdx nobj sizes =
      some ((List.range sizes.sum).flatMap fun pos => (List.range (nobj + 1)).map fun j => ((pos + j * sizes.sum : ℕ) : ℤ)) := by
  have hlt : sizes.sum < 2 ^ 31 := by nlinarith
  unfold eaf2matrixRIdx
  rw [C113_eaf_rows sizes (fun s hs => (natSum_ge_of_mem hs).trans_lt hlt), if_pos hlt]
  simp only [Option.bind_eq_bind, Option.bind_some]
  rw [idxLevels_eq]
  have := idxRows_some (idxRowR nobj (sizes.sum : ℤ)) (fun pos => (List.range (nobj + 1)).map fun j => ((pos + j * sizes.sum : ℕ) : ℤ)) sizes.sum 0
    (by omega) (by
      intro q _ hq
      refine cMapM_some _ _ _ fun j hj => idxRow_elem j sizes.sum q (lt_of_lt_of_le ?_ h)
      have hj' := List.mem_range.1 hj
      have : j * sizes.sum ≤ nobj * sizes.sum := Nat.mul_le_mul_right _ (by omega)
      have : sizes.sum * (nobj + 1) = nobj * sizes.sum + sizes.sum := by ring
      omega)
  rw [show ((0 : ℕ) : ℤ) = 0 from rfl] at this
  rw [this, Option.map_some, List.range_eq_range' (n := sizes.sum)]

/-- **C113.**  The two-objective EAF of `N` points at given levels: if `3 * N * (number of levels)` is at most `2 ^ 31`, the matrix of the result has the
right number of rows and every element of it is written once. -/
theorem C113_eaf2d {α : Type} [LinearOrder α] {pts : ℕ → ℕ → α} {cumsize : ℕ → ℕ} {nruns : ℕ} {sx sy : List ℕ} {fuel : ℕ} (hr : RunsOk cumsize nruns)
    (hx : EafSortedX pts (cumsize (nruns - 1)) sx) (hy : EafSortedY pts (cumsize (nruns - 1)) sy) (hf : 2 * cumsize (nruns - 1) < fuel)
    (levels : List ℕ) (hl : ∀ k ∈ levels, 1 ≤ k) (hN : cumsize (nruns - 1) * levels.length * 3 ≤ 2 ^ 31) :
    ∃ res, eaf2d pts cumsize nruns (levels.map Int.ofNat) sx sy fuel = some res ∧
      eafTotalInt (res.map List.length) = some ((res.map List.length).sum : ℤ) ∧
      eaf2matrixIdx 2 (res.map List.length) = some ((List.range ((res.map List.length).sum * 3)).map fun k : ℕ => (k : ℤ)) := by
  obtain ⟨res, h1, h2⟩ := eaf2d_levels hr hx hy hf levels hl
  have hsum : (res.map List.length).sum ≤ cumsize (nruns - 1) * levels.length := by
    clear h1 hN
    induction h2 with
    | nil => exact Nat.zero_le _
    | @cons k out ks outs h _ ih =>
      have a := ih fun k hk => hl k (List.mem_cons_of_mem _ hk)
      have b := h.length_le hr (hl k (List.mem_cons_self ..))
      rw [List.map_cons, List.sum_cons, List.length_cons, Nat.mul_succ, add_comm]
      exact Nat.add_le_add a b
  have h3 : (res.map List.length).sum * (2 + 1) ≤ 2 ^ 31 := (Nat.mul_le_mul_right 3 hsum).trans hN
  have hlt : (res.map List.length).sum < 2 ^ 31 := by omega
  refine ⟨res, h1, ?_, ?_⟩
  · rw [C113_eaf_rows _ (fun s hs => (natSum_ge_of_mem hs).trans_lt hlt), if_pos hlt]
  · rw [C113_eaf_matrix 2 (by norm_num) (by norm_num), if_pos h3]

/-! ### Reading a file -/

/-- The capacity after reading some numbers: the next multiple of 512. -/
theorem readCap_spec (k : ℕ) : ∀ t c : ℕ, t ≤ 512 * c → 512 * c < t + 512 → t + k ≤ 2 ^ 31 - 512 →
    ∃ c' : ℕ, readCap k (t : ℤ) ((512 * c : ℕ) : ℤ) = some (((t + k : ℕ) : ℤ), ((512 * c' : ℕ) : ℤ)) ∧ t + k ≤ 512 * c' ∧ 512 * c' < t + k + 512 := by
  induction k with
  | zero => intro t c h1 h2 h3; exact ⟨c, rfl, h1, h2⟩
  | succ k ih =>
    intro t c h1 h2 h3
    have hc1 : cint ((t : ℤ) + 1) = some ((t + 1 : ℕ) : ℤ) := cint_nat (a := t + 1) (by omega)
    rw [readCap]
    by_cases he : t = 512 * c
    · have he' : (t : ℤ) = ((512 * c : ℕ) : ℤ) := by exact_mod_cast he
      have hlt : 512 * (c + 1) < 2 ^ 31 := by omega
      have hw : wrapInt ((((512 * c : ℕ) : ℤ) % 2 ^ 64 + 4096 / 8) % 2 ^ 64) = ((512 * (c + 1) : ℕ) : ℤ) := by
        have a1 : ((512 * c : ℕ) : ℤ) % 2 ^ 64 = ((512 * c : ℕ) : ℤ) := Int.emod_eq_of_lt (by positivity) (by
          have : 512 * c < 2 ^ 64 := by omega
          exact_mod_cast this)
        have a2 : ((512 * c : ℕ) : ℤ) + 4096 / 8 = ((512 * (c + 1) : ℕ) : ℤ) := by push_cast; ring
        rw [a1, a2, Int.emod_eq_of_lt (by positivity) (by
          have : 512 * (c + 1) < 2 ^ 64 := by omega
          exact_mod_cast this)]
        exact wrapInt_id (by positivity) (by exact_mod_cast hlt)
      simp only [if_pos he', hw]
      have hb : ((512 * (c + 1) : ℕ) : ℤ) % 2 ^ 64 * 8 % 2 ^ 64 ≤ 2 ^ 63 - 1 := by
        have a1 : ((512 * (c + 1) : ℕ) : ℤ) % 2 ^ 64 = ((512 * (c + 1) : ℕ) : ℤ) := Int.emod_eq_of_lt (by positivity) (by
          have : 512 * (c + 1) < 2 ^ 64 := by omega
          exact_mod_cast this)
        have a3 : ((512 * (c + 1) : ℕ) : ℤ) < 2 ^ 31 := by exact_mod_cast hlt
        have a4 : (0 : ℤ) ≤ ((512 * (c + 1) : ℕ) : ℤ) := by positivity
        rw [a1, Int.emod_eq_of_lt (by linarith) (by linarith)]
        linarith
      rw [if_neg (fun h => absurd h.2 (not_lt.2 hb)), hc1]
      simp only [Option.bind_eq_bind, Option.bind_some]
      obtain ⟨c', a, b, d⟩ := ih (t + 1) (c + 1) (by omega) (by omega) (by omega)
      refine ⟨c', ?_, by omega, by omega⟩
      rw [a, show t + 1 + k = t + (k + 1) by ring]
    · have he' : (t : ℤ) ≠ ((512 * c : ℕ) : ℤ) := by exact_mod_cast he
      simp only [if_neg he']
      rw [if_neg (fun h => he' h.1), hc1]
      simp only [Option.bind_eq_bind, Option.bind_some]
      obtain ⟨c', a, b, d⟩ := ih (t + 1) c (by omega) (by omega) (by omega)
      refine ⟨c', ?_, by omega, by omega⟩
      rw [a, show t + 1 + k = t + (k + 1) by ring]

theorem readCap_add (a b : ℕ) : ∀ t c : ℤ, readCap (a + b) t c = (readCap a t c).bind fun q => readCap b q.1 q.2 := by
  induction a with
  | zero => intro t c; rw [zero_add]; rfl
  | succ a ih =>
    intro t c
    rw [show a + 1 + b = (a + b) + 1 by ring, readCap, readCap]
    generalize (if t = c then _ else _) = c'
    by_cases hc : t = c ∧ c' % 2 ^ 64 * 8 % 2 ^ 64 > 2 ^ 63 - 1
    · simp only [if_pos hc]
      rfl
    · simp only [if_neg hc]
      cases cint (t + 1) with
      | none => rfl
      | some p => simp only [Option.bind_eq_bind, Option.bind_some, ih]

/-- **C113.**  Reading `k` numbers from a file: up to `2 ^ 31 - 512` the block is always large enough; with one more number, the program writes through a
null pointer. -/
theorem C113_read (k : ℕ) :
    (k ≤ 2 ^ 31 - 512 → ∃ c : ℕ, readCap k 0 0 = some ((k : ℤ), (c : ℤ)) ∧ k ≤ c) ∧ (2 ^ 31 - 512 < k → readCap k 0 0 = none) := by
  constructor
  · intro h
    obtain ⟨c', a, b, _⟩ := readCap_spec k 0 0 (by omega) (by omega) (by omega)
    rw [zero_add] at a
    exact ⟨512 * c', a, by omega⟩
  · intro h
    obtain ⟨r, rfl⟩ := Nat.exists_eq_add_of_lt h
    obtain ⟨c', a, b, d⟩ := readCap_spec (2 ^ 31 - 512) 0 0 (by omega) (by omega) (by omega)
    have hc : c' = 2 ^ 22 - 1 := by omega
    subst hc
    rw [show 2 ^ 31 - 512 + r + 1 = (2 ^ 31 - 512) + (r + 1) by ring, readCap_add]
    have a' : readCap (2 ^ 31 - 512) 0 0 = some ((2 ^ 31 - 512 : ℤ), (2 ^ 31 - 512 : ℤ)) := by
      refine Eq.trans ?_ (a.trans ?_)
      · rfl
      · norm_num
    rw [a', Option.bind_some, readCap]
    norm_num [wrapInt]

/-- Non-vacuity, and the first failures: `hypervolume` of 715827882 points with three objectives (17 GB), and one point less. -/
example : ¬ ∀ e ∈ hvAllocs, e.eval (cenv [("d", 3), ("n", 715827882)]) = some (e.exact (cenv [("d", 3), ("n", 715827882)])) := by
  rw [C113_hv] <;> simp [cenv, List.lookup]

example : ∀ e ∈ hvAllocs, e.eval (cenv [("d", 3), ("n", 715827881)]) = some (e.exact (cenv [("d", 3), ("n", 715827881)])) := by
  rw [C113_hv] <;> simp [cenv, List.lookup]

end Moo
