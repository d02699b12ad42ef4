import Verif.Lemmas.HvMemRec
import Verif.Props.HvTree

/-!
# C88: the hypervolume computation makes only valid memory accesses, whatever `qsort` does with ties

`fpliHvMem` (`Verif/Model/HvMem.lean`) runs `fpli_hv` on memory in which every cell is undefined until it is written; it is `none` when the program reads
an undefined cell, reads or writes out of range, follows the null data pointer of the list head or does not leave a loop in time.
-/

set_option autoImplicit false
set_option linter.unusedSectionVars false

namespace Moo

variable {x : ℕ → ℕ → ℝ} {ref : ℕ → ℝ} {n d : ℕ}

theorem memBox_some {p : ℕ} (hp1 : 1 ≤ p) (hp : p ≤ n) : ∀ m, m ≤ d → memBox x ref n d p m = some (boxProduct x ref p m)
  | 0, _ => rfl
  | m + 1, hm => by
    unfold memBox boxProduct
    simp only [memBox_some hp1 hp m (by omega), Option.bind_eq_bind, Option.bind_some, rdRef_some (ref := ref) (show m < d by omega),
      rdData_some (x := x) hp1 hp (show m < d by omega)]

theorem fpliHvMem_eq (hd : 3 ≤ d) (ords : ℕ → List ℕ) (b0 : ℝ) (mem : HvState ℝ) (hord : HvOrders x d n ords)
    (hb : ∀ p, 1 ≤ p → p ≤ n → ∀ k < d, b0 ≤ x p k) : fpliHvMem x d n ref ords b0 = some (fpliHvN x d n ref ords b0 mem) := by
  set N := List.range' 1 n with hNdef
  have hNnd : N.Nodup := by rw [hNdef]; exact List.nodup_range'
  have hN0 : 0 ∉ N := by rw [hNdef, List.mem_range'_1]; omega
  have hNb : ∀ p ∈ N, 1 ≤ p ∧ p ≤ n := by
    intro p hp
    rw [hNdef, List.mem_range'_1] at hp; omega
  set pos : ℕ → ℕ → ℕ := fun i p => (ords i).idxOf p with hpos
  have hperm : ∀ i < d, (ords i).Perm N := fun i hi => hvOrders_perm hord i hi
  have hnd : ∀ i < d, (ords i).Nodup := fun i hi => (hperm i hi).nodup_iff.2 hNnd
  have hmem : ∀ i < d, ∀ p, p ∈ ords i ↔ p ∈ N := fun i hi p => (hperm i hi).mem_iff
  have hsort : ∀ i < d, ∀ p ∈ N, ∀ q ∈ N, pos i p < pos i q → x p i ≤ x q i := by
    intro i hi p hp q hq hlt
    exact pairwise_of_idxOf (hvOrders_sorted hord i hi) ((hmem i hi p).2 hp) ((hmem i hi q).2 hq) hlt
  have hsort' : ∀ i < d, ∀ p q, 1 ≤ p → p ≤ n → 1 ≤ q → q ≤ n → pos i p < pos i q → x p i ≤ x q i := by
    intro i hi p q h1 h2 h3 h4
    exact hsort i hi p (by rw [hNdef, List.mem_range'_1]; omega) q (by rw [hNdef, List.mem_range'_1]; omega)
  obtain ⟨s1, -, -, -, s5⟩ := linkAll_spec ords d
    { mem with
      ignore := fun _ => 0
      area := fun i p => if p = 0 ∧ i < d then 0 else mem.area i p
      bound := fun _ => b0 } (fun i hi => ⟨hnd i hi, fun h => hN0 ((hmem i hi 0).1 h)⟩)
  have hls0 : ∀ k < d, LinkedSet ((setupCdllist ords d b0 mem).next k) ((setupCdllist ords d b0 mem).prev k) (pos k) N :=
    fun k hk => ⟨ords k, hmem k hk, pairwise_idxOf (hnd k hk), s1 k hk⟩
  obtain ⟨M0, e0, h0⟩ := memSetup_agree (n := n) ords hperm b0 mem
  obtain ⟨M1, e1, h1, -, -⟩ := memFilterRef_agree (ref := ref) hsort hNb hNnd hls0 h0 d (le_refl _)
  obtain ⟨A, S1, f1, f2, f3, f4, -, -, f7⟩ := filterRef_spec (ref := ref) hsort hN0 hNnd _ hls0 d (le_refl _)
  have hNlen : N.length = n := by rw [hNdef, List.length_range']
  rw [hNlen] at f1 e1 h1
  rw [f1] at e1 h1
  dsimp only at e1 h1
  unfold fpliHvMem fpliHvN
  rw [e0, f1]
  simp only [Option.bind_eq_bind, Option.bind_some, e1]
  by_cases hA0 : A.length = 0
  · rw [if_pos hA0, if_pos hA0]
  rw [if_neg hA0, if_neg hA0]
  have hAb : ∀ p ∈ A, 1 ≤ p ∧ p ≤ n := fun p hp => hNb p ((f3 p).1 hp).1
  by_cases hA1 : A.length = 1
  · rw [if_pos hA1, if_pos hA1, h1.next 0 (by omega) 0 (by omega)]
    obtain ⟨p, rfl⟩ := List.length_eq_one_iff.1 hA1
    obtain ⟨l, g1, g2, g3⟩ := f4 0 (by omega)
    have hl : l = [p] := by
      have hlen := length_eq_of_mem_iff (pairwise_pos_nodup g2) (List.nodup_singleton p) g1
      obtain ⟨q, rfl⟩ := List.length_eq_one_iff.1 hlen
      have := (g1 q).1 (by simp)
      simp at this; rw [this]
    subst hl
    have hp : S1.next 0 0 = p := g3.1
    have hb := hAb p (by simp)
    rw [hp]
    exact memBox_some hb.1 hb.2 d (le_refl _)
  · rw [if_neg hA1, if_neg hA1]
    have hlists : HvLists pos n (d - 3 + 2) A S1 :=
      { nodup := f2, ne := fun hh => hA0 (by rw [hh]; rfl), zero := fun hz => hN0 ((f3 0).1 hz).1
        len := by
          rw [← hNlen]; exact (List.subperm_of_subset f2 (fun p hp => ((f3 p).1 hp).1)).length_le
        lists := fun i _ hi => f4 i (by omega) }
    obtain ⟨M2, e2, -⟩ := memRec_safe (ref := ref) hd hsort' (d - 3) (by omega) A S1 M1 hlists (fun p hp => (hAb p hp).2) h1 (by
      intro i h3 hi q hq hlt
      exfalso
      have hbi : S1.bound i = b0 := by rw [f7]; exact congrFun s5 i
      rw [hbi] at hlt
      have := hAb q hq
      exact absurd hlt (not_lt.2 (hb q this.1 this.2 i (by omega))))
    rw [e2]; rfl

/-- **C88**.  For every set of points, every reference point and every result of `qsort` (stable or not), the hypervolume computation in three or more
objectives reads only memory that it has initialised, stays inside its arrays, never follows a null data pointer and ends; what it returns is the value that the
model of C12 and C13 gives, whatever was in the memory. -/
theorem C88_memory_safe (d n : ℕ) (hd : 3 ≤ d) (hn : 0 < n) (pts : ℕ → ℕ → ℝ) (ref : ℕ → ℝ) (env : HvEnv ℝ) (henv : HvEnvOk pts d n env) :
    fpliHvMem (nodeTable pts) d n ref env.ords env.b0 = some (fpliHv pts d n ref env) := by
  unfold fpliHv
  rw [if_neg (by omega), if_neg (by omega)]
  refine fpliHvMem_eq hd env.ords env.b0 env.mem (henv.2.1 (by omega)) ?_
  intro p h1 h2 k hk
  exact henv.2.2 (p - 1) (by omega) k hk

/-- **C88**: the result does not depend on the contents of the memory that `malloc` returns. -/
theorem C88_independent_of_memory (d n : ℕ) (hd : 3 ≤ d) (pts : ℕ → ℕ → ℝ) (ref : ℕ → ℝ) (env : HvEnv ℝ) (mem : HvState ℝ)
    (henv : HvEnvOk pts d n env) : fpliHv pts d n ref { env with mem := mem } = fpliHv pts d n ref env := by
  rcases Nat.eq_zero_or_pos n with h0 | hn
  · subst h0; rfl
  · have h1 := C88_memory_safe d n hd hn pts ref env henv
    have h2 := C88_memory_safe d n hd hn pts ref { env with mem := mem } henv
    exact Option.some.inj (h2.symm.trans h1)

/-- The environment of the counterexample to C13, where `qsort` is not stable, meets the hypotheses: the value is wrong there, but memory is used correctly. -/
example : HvEnvOk cexPts 4 3 cexEnv ∧ fpliHvMem (nodeTable cexPts) 4 3 (fun _ => 4) cexEnv.ords cexEnv.b0 = some 88 :=
  ⟨cexEnv_ok, by decide +kernel⟩

/-- Two points whose last coordinate is below `-DBL_MAX` (in the code: `-inf`), here with `0` for `-DBL_MAX`. -/
def lowPts : ℕ → ℕ → ℤ := fun i k => if k = 3 then -1 else if k = 0 then i else 1 - i

/-- **C88**, the hypothesis on `-DBL_MAX` is needed.  With two points whose last coordinate is smaller than `-DBL_MAX`, that is, `-inf`, and four
objectives, the computation reads a `vol` that it has not initialised (c/hv.c:1051). -/
theorem C88_false_minus_infinity : HvOrders (nodeTable lowPts) 4 2 (fun k => if k = 1 ∨ k = 2 then [2, 1] else [1, 2]) ∧
    (∀ i < 2, ∀ k < 4, lowPts i k < 3) ∧
    fpliHvMem (nodeTable lowPts) 4 2 (fun _ => 3) (fun k => if k = 1 ∨ k = 2 then [2, 1] else [1, 2]) 0 = none := by
  refine ⟨⟨⟨by decide, by decide⟩, ?_⟩, by decide, by decide +kernel⟩
  intro j hj
  have : j = 0 ∨ j = 1 ∨ j = 2 := by omega
  rcases this with rfl | rfl | rfl <;> exact ⟨by decide, by decide⟩

/-- With `-2` for `-DBL_MAX` the same points give a value. -/
example : fpliHvMem (nodeTable lowPts) 4 2 (fun _ => 3) (fun k => if k = 1 ∨ k = 2 then [2, 1] else [1, 2]) (-2) = some 88 := by decide +kernel

end Moo
