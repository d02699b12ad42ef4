import Verif.Model.IndNan
import Verif.Lemmas.Epsilon
import Mathlib.Algebra.Order.Field.Basic
import Mathlib.Tactic.Positivity
import Mathlib.Tactic.Linarith

set_option autoImplicit false
set_option linter.unusedSectionVars false

namespace Moo

section
variable {β : Type} [LinearOrder β]

@[simp] theorem nanMax_none_left (y : Option β) : nanMax none y = y := by
  unfold nanMax ieeeCmp; cases y <;> simp

@[simp] theorem nanMax_none_right (x : Option β) : nanMax x none = none := by
  unfold nanMax ieeeCmp; cases x <;> simp

@[simp] theorem nanMin_none_left (y : Option β) : nanMin none y = y := by
  unfold nanMin ieeeCmp; cases y <;> simp

@[simp] theorem nanMin_none_right (x : Option β) : nanMin x none = none := by
  unfold nanMin ieeeCmp; cases x <;> simp

@[simp] theorem nanMax_some (x y : β) : nanMax (some x) (some y) = some (cMax x y) := by
  unfold nanMax ieeeCmp cMax
  by_cases h : y < x <;> simp [h]

@[simp] theorem nanMin_some (x y : β) : nanMin (some x) (some y) = some (cMin x y) := by
  unfold nanMin ieeeCmp cMin
  by_cases h : x < y <;> simp [h]

theorem nanMax_eq_none (x y : Option β) : nanMax x y = none ↔ y = none := by
  cases x <;> cases y <;> simp

theorem nanMin_eq_none (x y : Option β) : nanMin x y = none ↔ y = none := by
  cases x <;> cases y <;> simp

theorem nanMax_bot [OrderBot β] (y : Option β) : nanMax (some ⊥) y = y := by
  cases y <;> simp [cMax]

theorem nanMin_top [OrderTop β] (y : Option β) : nanMin (some ⊤) y = y := by
  cases y <;> simp [cMin]

/-- Two folds of the same function agree. -/
theorem foldRange_congr {γ : Type} (op : γ → γ → γ) (g g' : ℕ → γ) (n : ℕ) (init : γ) (h : ∀ i < n, g i = g' i) :
    (List.range n).foldl (fun m i => op m (g i)) init = (List.range n).foldl (fun m i => op m (g' i)) init := by
  induction n with
  | zero => rfl
  | succ n ih =>
    rw [List.range_succ, List.foldl_append, List.foldl_append, ih (fun i hi => h i (by omega))]
    simp [h n (by omega)]

/-- A fold splits. -/
theorem foldRange_split {γ : Type} (op : γ → γ → γ) (g : ℕ → γ) (k n : ℕ) (init : γ) (hk : k ≤ n) :
    (List.range n).foldl (fun m i => op m (g i)) init =
      (List.range (n - k)).foldl (fun m i => op m (g (k + i))) ((List.range k).foldl (fun m i => op m (g i)) init) := by
  obtain ⟨j, rfl⟩ : ∃ j, n = k + j := ⟨n - k, by omega⟩
  rw [List.range_add, List.foldl_append, List.foldl_map, Nat.add_sub_cancel_left]

/-- An element that absorbs what is before it and that is forgotten by the next one: only the elements after it count. -/
theorem foldRange_reset {γ : Type} (op : γ → γ → γ) (g : ℕ → γ) (k n : ℕ) (init : γ) (hk : k + 1 < n)
    (h1 : ∀ m, op m (g k) = g k) (h2 : op (g k) (g (k + 1)) = op init (g (k + 1))) :
    (List.range n).foldl (fun m i => op m (g i)) init =
      (List.range (n - (k + 1))).foldl (fun m i => op m (g (k + 1 + i))) init := by
  rw [foldRange_split op g (k + 1) n init (by omega), List.range_succ, List.foldl_append, List.foldl_cons, List.foldl_nil, h1]
  obtain ⟨j, hj⟩ : ∃ j, n - (k + 1) = j + 1 := ⟨n - (k + 2), by omega⟩
  rw [hj, List.range_succ_eq_map, List.foldl_cons, List.foldl_cons]
  simp only [Nat.add_zero] at h2 ⊢
  rw [h2]

/-- A property that every element has and the operation keeps. -/
theorem foldRange_inv {γ : Type} (op : γ → γ → γ) (P : γ → Prop) (g : ℕ → γ) (n : ℕ) (init : γ) (h0 : P init)
    (h : ∀ i < n, ∀ m, P m → P (op m (g i))) : P ((List.range n).foldl (fun m i => op m (g i)) init) := by
  induction n with
  | zero => exact h0
  | succ n ih =>
    rw [List.range_succ, List.foldl_append]
    exact h n (by omega) _ (ih fun i hi => h i (by omega))

end

section
variable {K : Type} [Field K] [LinearOrder K] [IsStrictOrderedRing K]

@[simp] theorem finVal_fin (x : K) : finVal (fin x) = x := rfl

attribute [local simp] fin_ne_top fin_ne_bot

theorem fin_lt_fin {x y : K} : (fin x : Ext K) < fin y ↔ x < y := by
  unfold fin; rw [WithBot.coe_lt_coe, WithTop.coe_lt_coe]

theorem ext_cases (a : Ext K) : a = ⊥ ∨ a = ⊤ ∨ ∃ x, a = fin x := by
  induction a using WithBot.recBotCoe with
  | bot => left; rfl
  | coe a =>
    right
    induction a using WithTop.recTopCoe with
    | top => left; rfl
    | coe a => right; exact ⟨a, rfl⟩

@[simp] theorem extSub_fin (x y : K) : extSub (fin x) (fin y) = some (fin (x - y)) := by
  simp [extSub]

@[simp] theorem dblSub_fin (x y : K) : dblSub (some (fin x)) (some (fin y)) = some (fin (x - y)) := by
  simp [dblSub]

@[simp] theorem dblSub_none_left (y : Dbl K) : dblSub none y = none := by cases y <;> rfl

@[simp] theorem dblSub_none_right (x : Dbl K) : dblSub x none = none := by cases x <;> rfl

@[simp] theorem dblDiv_none_left (y : Dbl K) : dblDiv none y = none := by cases y <;> rfl

@[simp] theorem dblDiv_none_right (x : Dbl K) : dblDiv x none = none := by cases x <;> rfl

theorem minmaxFromBool_cases (mx : ℕ → Bool) (d : ℕ) :
    minmaxFromBool mx d = if mx d then 1 else -1 := by
  unfold minmaxFromBool AGREE_MAXIMISE AGREE_MINIMISE
  rfl

theorem epsAddTempN_eq (mx : ℕ → Bool) (d : ℕ) (a b : Dbl K) :
    epsAddTempN (minmaxFromBool mx d) a b = if mx d then dblSub b a else dblSub a b := by
  rw [minmaxFromBool_cases]
  unfold epsAddTempN
  cases mx d <;> simp

theorem epsMultTempN_eq (mx : ℕ → Bool) (d : ℕ) (a b : Dbl K) :
    epsMultTempN (minmaxFromBool mx d) a b = if mx d then dblDiv b a else dblDiv a b := by
  rw [minmaxFromBool_cases]
  unfold epsMultTempN
  cases mx d <;> simp

/-- the multiplicative epsilon without the tests -/
def mulMax (dim : ℕ) (minmax : ℕ → ℤ) (pa pb : ℕ → Dbl K) : Dbl K :=
  (List.range dim).foldl (fun m d => nanMax m (epsMultTempN (minmax d) (pa d) (pb d))) (some (fin 0))

/-- the multiplicative epsilon without the tests -/
def mulMin (dim : ℕ) (minmax : ℕ → ℤ) (A : ℕ → ℕ → Dbl K) (sizeA : ℕ) (pb : ℕ → Dbl K) : Dbl K :=
  (List.range sizeA).foldl (fun m a => nanMin m (mulMax dim minmax (A a) pb)) (some ⊤)

/-- the multiplicative epsilon without the tests -/
def mulEps (dim : ℕ) (minmax : ℕ → ℤ) (A : ℕ → ℕ → Dbl K) (sizeA : ℕ) (B : ℕ → ℕ → Dbl K) (sizeB : ℕ) : Dbl K :=
  (List.range sizeB).foldl (fun m b => nanMax m (mulMin dim minmax A sizeA (B b))) (some (fin 0))

/-- The value is not NaN and at most 0. -/
def NonPos (x : Dbl K) : Prop := ∃ v, x = some v ∧ v ≤ fin 0

/-- NaN or at least 0 -/
def NnN (x : Dbl K) : Prop := ∀ v, x = some v → fin 0 ≤ v

theorem nonPos_iff (x : Dbl K) : (ieeeCmp (Ext K)).le x (some (fin 0)) = true ↔ NonPos x := by
  cases x <;> simp [ieeeCmp, NonPos]

theorem pos_of_not {v : Ext K} (h : ¬ NonPos (some v)) : v = ⊤ ∨ ∃ x : K, v = fin x ∧ 0 < x := by
  unfold NonPos at h
  rcases ext_cases v with rfl | rfl | ⟨x, rfl⟩
  · exact absurd ⟨⊥, rfl, bot_le⟩ h
  · left; rfl
  · right
    refine ⟨x, rfl, ?_⟩
    by_contra hx
    exact h ⟨_, rfl, fin_le_fin.2 (not_lt.1 hx)⟩

theorem zero_le_top : (fin 0 : Ext K) ≤ ⊤ := le_top

theorem extDiv_nn {a b : Ext K} (ha : ¬ NonPos (some a)) (hb : ¬ NonPos (some b)) : NnN (extDiv a b) := by
  intro v hv
  unfold extDiv at hv
  rcases pos_of_not ha with rfl | ⟨x, rfl, hx⟩ <;> rcases pos_of_not hb with rfl | ⟨y, rfl, hy⟩
  · simp at hv
  · simp at hv; subst hv; exact le_top
  · simp at hv; subst hv; exact le_refl _
  · simp at hv; subst hv; exact fin_le_fin.2 (by positivity)

theorem dblDiv_nn {a b : Dbl K} (ha : ¬ NonPos a) (hb : ¬ NonPos b) : NnN (dblDiv a b) := by
  cases a with
  | none => intro v hv; simp at hv
  | some a =>
    cases b with
    | none => intro v hv; simp at hv
    | some b => exact extDiv_nn ha hb

theorem epsMultTempN_nn {dir : ℤ} {a b : Dbl K} (ha : ¬ NonPos a) (hb : ¬ NonPos b) : NnN (epsMultTempN dir a b) := by
  unfold epsMultTempN
  split_ifs
  · exact dblDiv_nn ha hb
  · exact dblDiv_nn hb ha
  · intro v hv; simp at hv; subst hv; exact fin_le_fin.2 (by norm_num)

theorem nnN_nanMax {x y : Dbl K} (hx : NnN x) (hy : NnN y) : NnN (nanMax x y) := by
  unfold nanMax; split_ifs <;> assumption

theorem nnN_nanMin {x y : Dbl K} (hx : NnN x) (hy : NnN y) : NnN (nanMin x y) := by
  unfold nanMin; split_ifs <;> assumption

theorem nnN_zero : NnN (some (fin 0) : Dbl K) := by intro v hv; simp at hv; subst hv; exact le_refl _

theorem nnN_top : NnN (some ⊤ : Dbl K) := by intro v hv; simp at hv; subst hv; exact le_top

theorem nanMax_zero {y : Dbl K} (hy : NnN y) : nanMax (some (fin 0)) y = y := by
  cases y with
  | none => simp
  | some y =>
    have := hy y rfl
    rw [nanMax_some, cMax, if_neg (not_lt.2 this)]

theorem mulMax_nn {dim : ℕ} {minmax : ℕ → ℤ} {pa pb : ℕ → Dbl K} (ha : ∀ d < dim, ¬ NonPos (pa d)) (hb : ∀ d < dim, ¬ NonPos (pb d)) :
    NnN (mulMax dim minmax pa pb) :=
  foldRange_inv nanMax NnN _ dim _ nnN_zero fun i hi _ hm => nnN_nanMax hm (epsMultTempN_nn (ha i hi) (hb i hi))

theorem mulMin_nn {dim nA : ℕ} {minmax : ℕ → ℤ} {A : ℕ → ℕ → Dbl K} {pb : ℕ → Dbl K} (ha : ∀ a < nA, ∀ d < dim, ¬ NonPos (A a d))
    (hb : ∀ d < dim, ¬ NonPos (pb d)) : NnN (mulMin dim minmax A nA pb) :=
  foldRange_inv nanMin NnN _ nA _ nnN_top fun i hi _ hm => nnN_nanMin hm (mulMax_nn (ha i hi) hb)

/-- The loop over the objectives. -/
theorem epsMultMaxN_eq (minmax : ℕ → ℤ) (pa pb : ℕ → Dbl K) (l : List ℕ) (m : Dbl K) :
    ((∀ d ∈ l, ¬ NonPos (pa d) ∧ ¬ NonPos (pb d)) →
      epsMultMaxN minmax pa pb l m = some (l.foldl (fun m d => nanMax m (epsMultTempN (minmax d) (pa d) (pb d))) m)) ∧
    ((∃ d ∈ l, NonPos (pa d) ∨ NonPos (pb d)) → epsMultMaxN minmax pa pb l m = none) := by
  induction l generalizing m with
  | nil => simp [epsMultMaxN]
  | cons d l ih =>
    unfold epsMultMaxN
    have hiff : ((ieeeCmp (Ext K)).le (pa d) (some (fin 0)) = true ∨ (ieeeCmp (Ext K)).le (pb d) (some (fin 0)) = true) ↔
        (NonPos (pa d) ∨ NonPos (pb d)) := or_congr (nonPos_iff _) (nonPos_iff _)
    constructor
    · intro h
      have hd := h d (by simp)
      have ht : ¬ (ieeeCmp (Ext K)).lt (epsMultTempN (minmax d) (pa d) (pb d)) (some (fin 0)) = true := by
        have := epsMultTempN_nn (dir := minmax d) hd.1 hd.2
        cases hc : epsMultTempN (minmax d) (pa d) (pb d) with
        | none => simp [ieeeCmp]
        | some v => simpa [ieeeCmp] using this v hc
      rw [if_neg (by rw [hiff]; tauto), if_neg ht, (ih _).1 fun e he => h e (by simp [he])]
      rfl
    · rintro ⟨e, he, hb⟩
      by_cases hd : NonPos (pa d) ∨ NonPos (pb d)
      · rw [if_pos (hiff.2 hd)]
      · rw [if_neg (fun h => hd (hiff.1 h))]
        dsimp only
        split_ifs
        · rfl
        · rcases List.mem_cons.1 he with rfl | he
          · exact absurd hb hd
          · exact (ih _).2 ⟨e, he, hb⟩

theorem epsMultMinN_ok (dim : ℕ) (minmax : ℕ → ℤ) (A : ℕ → ℕ → Dbl K) (pb : ℕ → Dbl K) (l : List ℕ) (m : Dbl K)
    (hb : ∀ d < dim, ¬ NonPos (pb d)) (ha : ∀ a ∈ l, ∀ d < dim, ¬ NonPos (A a d)) :
    epsMultMinN dim minmax A pb l m = some (l.foldl (fun m a => nanMin m (mulMax dim minmax (A a) pb)) m) := by
  induction l generalizing m with
  | nil => rfl
  | cons a l ih =>
    unfold epsMultMinN
    rw [(epsMultMaxN_eq minmax (A a) pb (List.range dim) (some (fin 0))).1
      fun d hd => ⟨ha a (by simp) d (List.mem_range.1 hd), hb d (List.mem_range.1 hd)⟩]
    dsimp only
    rw [ih _ fun a' h' => ha a' (by simp [h'])]
    rfl

theorem epsMultMinN_bad (dim : ℕ) (minmax : ℕ → ℤ) (A : ℕ → ℕ → Dbl K) (pb : ℕ → Dbl K) (l : List ℕ) (m : Dbl K)
    (h : ∃ a ∈ l, ∃ d < dim, NonPos (A a d) ∨ NonPos (pb d)) : epsMultMinN dim minmax A pb l m = none := by
  induction l generalizing m with
  | nil => obtain ⟨a, ha, _⟩ := h; simp at ha
  | cons a l ih =>
    unfold epsMultMinN
    by_cases hb : ∃ d ∈ List.range dim, NonPos (A a d) ∨ NonPos (pb d)
    · rw [(epsMultMaxN_eq minmax (A a) pb (List.range dim) (some (fin 0))).2 hb]
    · rw [(epsMultMaxN_eq minmax (A a) pb (List.range dim) (some (fin 0))).1 fun d hd => by
        push Not at hb; exact hb d hd]
      dsimp only
      apply ih
      obtain ⟨a', ha', d, hd, hn⟩ := h
      rcases List.mem_cons.1 ha' with rfl | ha'
      · exact absurd ⟨d, List.mem_range.2 hd, hn⟩ hb
      · exact ⟨a', ha', d, hd, hn⟩

theorem epsMultOuterN_ok (dim : ℕ) (minmax : ℕ → ℤ) (A : ℕ → ℕ → Dbl K) (nA : ℕ) (B : ℕ → ℕ → Dbl K) (l : List ℕ) (m : Dbl K)
    (hb : ∀ b ∈ l, ∀ d < dim, ¬ NonPos (B b d)) (ha : ∀ a < nA, ∀ d < dim, ¬ NonPos (A a d)) :
    epsMultOuterN dim minmax A nA B l m = some (l.foldl (fun m b => nanMax m (mulMin dim minmax A nA (B b))) m) := by
  induction l generalizing m with
  | nil => rfl
  | cons b l ih =>
    unfold epsMultOuterN
    rw [epsMultMinN_ok dim minmax A (B b) (List.range nA) (some ⊤) (hb b (by simp)) fun a ha' => ha a (List.mem_range.1 ha')]
    dsimp only
    rw [ih _ fun b' h' => hb b' (by simp [h'])]
    rfl

theorem epsMultOuterN_bad (dim : ℕ) (minmax : ℕ → ℤ) (A : ℕ → ℕ → Dbl K) (nA : ℕ) (B : ℕ → ℕ → Dbl K) (l : List ℕ) (m : Dbl K)
    (h : ∃ b ∈ l, ∃ a < nA, ∃ d < dim, NonPos (A a d) ∨ NonPos (B b d)) : epsMultOuterN dim minmax A nA B l m = none := by
  induction l generalizing m with
  | nil => obtain ⟨a, ha, _⟩ := h; simp at ha
  | cons b l ih =>
    unfold epsMultOuterN
    by_cases hb : ∃ a ∈ List.range nA, ∃ d < dim, NonPos (A a d) ∨ NonPos (B b d)
    · rw [epsMultMinN_bad dim minmax A (B b) (List.range nA) (some ⊤) hb]
    · cases hc : epsMultMinN dim minmax A (B b) (List.range nA) (some ⊤) with
      | none => rfl
      | some mn =>
        dsimp only
        apply ih
        obtain ⟨b', hb', a, ha, d, hd, hn⟩ := h
        rcases List.mem_cons.1 hb' with rfl | hb'
        · exact absurd ⟨a, List.mem_range.2 ha, d, hd, hn⟩ hb
        · exact ⟨b', hb', a, ha, d, hd, hn⟩

end

/-! ### `c/igd.h` -/

@[simp] theorem dblAdd_none_left (y : Option (WithTop ℝ)) : dblAdd none y = none := by cases y <;> rfl

@[simp] theorem dblAdd_none_right (x : Option (WithTop ℝ)) : dblAdd x none = none := by cases x <;> rfl

@[simp] theorem dblAdd_some (x y : WithTop ℝ) : dblAdd (some x) (some y) = some (x + y) := rfl

theorem dblAdd_eq_none (x y : Option (WithTop ℝ)) : dblAdd x y = none ↔ x = none ∨ y = none := by
  cases x <;> cases y <;> simp

theorem dblSq_eq_none (x : Dbl ℝ) : dblSq x = none ↔ x = none := by unfold dblSq; cases x <;> simp

@[simp] theorem dblSq_fin (x : ℝ) : dblSq (some (fin x)) = some ((x * x : ℝ) : WithTop ℝ) := by simp [dblSq, fin_ne_top, fin_ne_bot]

theorem gdDistN_eq_none (dim : ℕ) (minmax : ℕ → ℤ) (plus : Bool) (pa pr : ℕ → Dbl ℝ) :
    gdDistN dim minmax plus pa pr = none ↔ ∃ d < dim, minmax d ≠ 0 ∧ gdDiffN plus (minmax d) (pa d) (pr d) = none := by
  unfold gdDistN
  induction dim with
  | zero => simp
  | succ n ih =>
    rw [List.range_succ, List.foldl_append, List.foldl_cons, List.foldl_nil]
    by_cases h0 : minmax n = 0
    · rw [if_pos h0, ih]
      constructor
      · rintro ⟨d, hd, h⟩; exact ⟨d, by omega, h⟩
      · rintro ⟨d, hd, h⟩
        refine ⟨d, ?_, h⟩
        rcases Nat.lt_succ_iff_lt_or_eq.1 hd with hd | rfl
        · exact hd
        · exact absurd h0 h.1
    · rw [if_neg h0, dblAdd_eq_none, dblSq_eq_none, ih]
      constructor
      · rintro (⟨d, hd, h⟩ | h)
        · exact ⟨d, by omega, h⟩
        · exact ⟨n, by omega, h0, h⟩
      · rintro ⟨d, hd, h⟩
        rcases Nat.lt_succ_iff_lt_or_eq.1 hd with hd | rfl
        · exact Or.inl ⟨d, hd, h⟩
        · exact Or.inr h.2

/-- one step of the loop over `r` -/
noncomputable def minStepN (m x : Option (WithTop ℝ)) : Option (WithTop ℝ) := if (ieeeCmp (WithTop ℝ)).lt x m then x else m

@[simp] theorem minStepN_none (m : Option (WithTop ℝ)) : minStepN m none = m := by simp [minStepN, ieeeCmp]

theorem minStepN_ne_none {m x : Option (WithTop ℝ)} (h : m ≠ none) : minStepN m x ≠ none := by
  unfold minStepN
  split_ifs with hc
  · intro hx; rw [hx] at hc; simp [ieeeCmp] at hc
  · exact h

theorem gdMinN_eq (dim : ℕ) (minmax : ℕ → ℤ) (plus : Bool) (pa : ℕ → Dbl ℝ) (R : ℕ → ℕ → Dbl ℝ) (nR : ℕ) :
    gdMinN dim minmax plus pa R nR = (List.range nR).foldl (fun m r => minStepN m (gdDistN dim minmax plus pa (R r))) (some ⊤) := rfl

theorem gdMinN_ne_none (dim : ℕ) (minmax : ℕ → ℤ) (plus : Bool) (pa : ℕ → Dbl ℝ) (R : ℕ → ℕ → Dbl ℝ) (nR : ℕ) :
    gdMinN dim minmax plus pa R nR ≠ none := by
  rw [gdMinN_eq]
  exact foldRange_inv minStepN (fun m => m ≠ none) _ nR _ (by simp) fun i _ m hm => minStepN_ne_none hm

/-- the sum of `gd_common` -/
noncomputable def gdSumN (dim : ℕ) (minmax : ℕ → ℤ) (A : ℕ → ℕ → Dbl ℝ) (R : ℕ → ℕ → Dbl ℝ) (nR : ℕ) (plus : Bool) (p n : ℕ) :
    Option (WithTop ℝ) :=
  (List.range n).foldl (fun gd a =>
    dblAdd gd (if p = 1 then (gdMinN dim minmax plus (A a) R nR).map (WithTop.map Real.sqrt)
      else ((gdMinN dim minmax plus (A a) R nR).map (WithTop.map Real.sqrt)).map (WithTop.map fun x => x ^ p))) (some 0)

theorem gdCommonN_sum (dim : ℕ) (minmax : ℕ → ℤ) (A : ℕ → ℕ → Dbl ℝ) (nA : ℕ) (R : ℕ → ℕ → Dbl ℝ) (nR : ℕ) (plus psize : Bool) (p : ℕ) :
    gdCommonN dim minmax A nA R nR plus psize p = if nA = 0 then some ⊤ else
      (gdSumN dim minmax A R nR plus p nA).map (WithTop.map
        (if p = 1 then fun x : ℝ => x / (nA : ℝ) else if psize then fun x : ℝ => (x / (nA : ℝ)) ^ ((1 : ℝ) / p) else fun x : ℝ => x ^ ((1 : ℝ) / p) / (nA : ℝ))) := by
  unfold gdCommonN gdSumN
  split_ifs <;> rfl

theorem gdSumN_succ (dim : ℕ) (minmax : ℕ → ℤ) (A : ℕ → ℕ → Dbl ℝ) (R : ℕ → ℕ → Dbl ℝ) (nR : ℕ) (plus : Bool) (p n : ℕ) :
    gdSumN dim minmax A R nR plus p (n + 1) = dblAdd (gdSumN dim minmax A R nR plus p n)
      (if p = 1 then (gdMinN dim minmax plus (A n) R nR).map (WithTop.map Real.sqrt)
        else ((gdMinN dim minmax plus (A n) R nR).map (WithTop.map Real.sqrt)).map (WithTop.map fun x => x ^ p)) := by
  unfold gdSumN
  rw [List.range_succ, List.foldl_append, List.foldl_cons, List.foldl_nil]

/-- The result of `gd_common` depends only on the values of `min_dist`. -/
theorem gdCommonN_congr {dim dim' : ℕ} {minmax minmax' : ℕ → ℤ} {A A' : ℕ → ℕ → Dbl ℝ} {nA : ℕ} {R R' : ℕ → ℕ → Dbl ℝ} {nR nR' : ℕ}
    {plus psize : Bool} {p : ℕ}
    (h : ∀ a < nA, gdMinN dim minmax plus (A a) R nR = gdMinN dim' minmax' plus (A' a) R' nR') :
    gdCommonN dim minmax A nA R nR plus psize p = gdCommonN dim' minmax' A' nA R' nR' plus psize p := by
  have key : ∀ n ≤ nA, gdSumN dim minmax A R nR plus p n = gdSumN dim' minmax' A' R' nR' plus p n := by
    intro n hn
    induction n with
    | zero => rfl
    | succ n ih => rw [gdSumN_succ, gdSumN_succ, ih (by omega), h n (by omega)]
  rw [gdCommonN_sum, gdCommonN_sum, key nA le_rfl]

theorem gdSumN_ne_none (dim : ℕ) (minmax : ℕ → ℤ) (A : ℕ → ℕ → Dbl ℝ) (R : ℕ → ℕ → Dbl ℝ) (nR : ℕ) (plus : Bool) (p n : ℕ) :
    gdSumN dim minmax A R nR plus p n ≠ none := by
  unfold gdSumN
  refine foldRange_inv dblAdd (fun m => m ≠ none) _ n _ (by simp) fun i _ m hm => ?_
  rw [Ne, dblAdd_eq_none, not_or]
  refine ⟨hm, ?_⟩
  have := gdMinN_ne_none dim minmax plus (A i) R nR
  split_ifs <;> simp [this]

theorem gdSumN_top {dim : ℕ} {minmax : ℕ → ℤ} {A : ℕ → ℕ → Dbl ℝ} {R : ℕ → ℕ → Dbl ℝ} {nR : ℕ} {plus : Bool} {p n a : ℕ} (ha : a < n)
    (h : gdMinN dim minmax plus (A a) R nR = some ⊤) : gdSumN dim minmax A R nR plus p n = some ⊤ := by
  induction n with
  | zero => omega
  | succ n ih =>
    have hs : gdSumN dim minmax A R nR plus p (n + 1) = dblAdd (gdSumN dim minmax A R nR plus p n)
        (if p = 1 then (gdMinN dim minmax plus (A n) R nR).map (WithTop.map Real.sqrt)
          else ((gdMinN dim minmax plus (A n) R nR).map (WithTop.map Real.sqrt)).map (WithTop.map fun x => x ^ p)) := by
      unfold gdSumN
      rw [List.range_succ, List.foldl_append, List.foldl_cons, List.foldl_nil]
    rw [hs]
    obtain ⟨s, hs'⟩ := Option.ne_none_iff_exists'.1 (gdSumN_ne_none dim minmax A R nR plus p n)
    rcases Nat.lt_succ_iff_lt_or_eq.1 ha with ha | rfl
    · rw [ih ha]
      obtain ⟨m, hm⟩ := Option.ne_none_iff_exists'.1 (gdMinN_ne_none dim minmax plus (A n) R nR)
      rw [hm]
      split_ifs <;> simp
    · rw [h, hs']
      split_ifs <;> simp

end Moo
