import Verif.Lemmas.HvHom
import Verif.Props.HvMem
import Verif.Props.Hypervolume
import Verif.Props.HvNan

/-!
# C115, without NaN: three objectives or more

If no objective value and no reference coordinate is NaN, the program on doubles with NaN does exactly what it does on numbers.
-/

set_option autoImplicit false
set_option linter.unusedSectionVars false

namespace Moo

open MeasureTheory

theorem numHom_val {K : Type} [Field K] [LinearOrder K] [IsStrictOrderedRing K] : NumHom (NDouble.val : K → NDouble K) where
  zero := rfl
  one := rfl
  add _ _ := rfl
  sub _ _ := rfl
  mul _ _ := rfl
  lt := NDouble.val_lt
  le := NDouble.val_le

/-- **C115, without NaN.** Any number of objectives: the same accesses succeed, and the same value is returned, as for numbers. -/
theorem C115_same_hv {K : Type} [Field K] [LinearOrder K] [IsStrictOrderedRing K] (x : ℕ → ℕ → K) (d n : ℕ) (ref : ℕ → K)
    (ords : ℕ → List ℕ) (b0 : K) :
    fpliHvMem (fun p k => NDouble.val (x p k)) d n (fun k => NDouble.val (ref k)) ords (NDouble.val b0) =
      (fpliHvMem x d n ref ords b0).map NDouble.val :=
  fpliHvMem_hom numHom_val x d n ref ords b0

/-- **C115, without NaN.** Three objectives: the program on doubles with NaN makes no wrong access and returns a number, the volume of
the dominated region. -/
theorem C115_same_volume (n : ℕ) (hn : 0 < n) (pts : ℕ → ℕ → ℝ) (ref : ℕ → ℝ) (env : HvEnv ℝ) (henv : HvEnvOk pts 3 n env) :
    ∃ v : ℝ, fpliHvMem (fun p k => NDouble.val (nodeTable pts p k)) 3 n (fun k => NDouble.val (ref k)) env.ords (NDouble.val env.b0) =
      some (NDouble.val v) ∧ 0 ≤ v ∧ volume (dominatedRegion 3 n pts ref) = ENNReal.ofReal v := by
  refine ⟨fpliHv pts 3 n ref env, ?_, C12_hv3d_is_volume n pts ref env henv⟩
  rw [C115_same_hv, C88_memory_safe 3 n (le_refl _) hn pts ref env henv]
  rfl

/-- **C115, without NaN.** Four objectives or more: the program on doubles with NaN makes no wrong access and returns a number. -/
theorem C115_same_safe (d n : ℕ) (hd : 3 ≤ d) (hn : 0 < n) (pts : ℕ → ℕ → ℝ) (ref : ℕ → ℝ) (env : HvEnv ℝ) (henv : HvEnvOk pts d n env) :
    fpliHvMem (fun p k => NDouble.val (nodeTable pts p k)) d n (fun k => NDouble.val (ref k)) env.ords (NDouble.val env.b0) =
      some (NDouble.val (fpliHv pts d n ref env)) := by
  rw [C115_same_hv, C88_memory_safe d n hd hn pts ref env henv]
  rfl

/-- Three points in three objectives, on doubles with NaN. -/
example : fpliHvMem (fun p k => NDouble.val (nodeTable (fun i k => if i = k then (1 : ℚ) else 2) p k)) 3 3 (fun _ => NDouble.val 4)
    (fun k => if k = 0 then [1, 2, 3] else if k = 1 then [2, 3, 1] else [3, 1, 2]) (NDouble.val (-100)) = some (NDouble.val 20) := by
  rw [C115_same_hv]
  decide +kernel

end Moo
