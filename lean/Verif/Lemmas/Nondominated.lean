import Verif.Model.Nondominated
import Verif.Spec.Dominance
import Mathlib.Order.Basic

set_option autoImplicit false

/-! # Helper lemmas for dominance filtering: the pairwise loop -/

namespace Moo

section
variable {α : Type*} [LinearOrder α]

/-- The order on one coordinate used by the pairwise loop. -/
def leCoord (minmax : ℕ → ℤ) (agree : ℤ) (d : ℕ) (a b : α) : Prop :=
  if agree < 0 then a ≤ b
  else if agree > 0 then a ≥ b
  else if minmax d < 0 then a ≤ b
  else if minmax d > 0 then a ≥ b
  else True

/-- The preorder on rows decided by `leqPair`. -/
def leRow (dim : ℕ) (minmax : ℕ → ℤ) (agree : ℤ) (p q : ℕ → α) : Prop :=
  ∀ d < dim, leCoord minmax agree d (p d) (q d)

theorem leCoord_refl (minmax : ℕ → ℤ) (agree : ℤ) (d : ℕ) (a : α) :
    leCoord minmax agree d a a := by
  unfold leCoord; split_ifs <;> simp

theorem leCoord_trans (minmax : ℕ → ℤ) (agree : ℤ) (d : ℕ) {a b c : α}
    (h1 : leCoord minmax agree d a b) (h2 : leCoord minmax agree d b c) :
    leCoord minmax agree d a c := by
  unfold leCoord at *
  split_ifs at * <;> first | trivial | exact le_trans h1 h2 | exact le_trans h2 h1

theorem leRow_refl (dim : ℕ) (minmax : ℕ → ℤ) (agree : ℤ) (p : ℕ → α) :
    leRow dim minmax agree p p := fun d _ => leCoord_refl minmax agree d _

theorem leRow_trans (dim : ℕ) (minmax : ℕ → ℤ) (agree : ℤ) {p q r : ℕ → α}
    (h1 : leRow dim minmax agree p q) (h2 : leRow dim minmax agree q r) :
    leRow dim minmax agree p r := fun d hd => leCoord_trans minmax agree d (h1 d hd) (h2 d hd)

theorem leqPair_foldl (minmax : ℕ → ℤ) (agree : ℤ) (pj pk : ℕ → α) (l : List ℕ) (s : Bool × Bool) :
    let r := l.foldl (fun s d =>
      if agree < 0 then (s.1 && decide (pj d ≤ pk d), s.2 && decide (pk d ≤ pj d))
      else if agree > 0 then (s.1 && decide (pj d ≥ pk d), s.2 && decide (pk d ≥ pj d))
      else if minmax d < 0 then (s.1 && decide (pj d ≤ pk d), s.2 && decide (pk d ≤ pj d))
      else if minmax d > 0 then (s.1 && decide (pj d ≥ pk d), s.2 && decide (pk d ≥ pj d))
      else s) s
    (r.1 = true ↔ s.1 = true ∧ ∀ d ∈ l, leCoord minmax agree d (pj d) (pk d)) ∧
    (r.2 = true ↔ s.2 = true ∧ ∀ d ∈ l, leCoord minmax agree d (pk d) (pj d)) := by
  induction l generalizing s with
  | nil => simp
  | cons d l ih =>
    simp only [List.foldl_cons, List.forall_mem_cons]
    have := ih (if agree < 0 then (s.1 && decide (pj d ≤ pk d), s.2 && decide (pk d ≤ pj d))
      else if agree > 0 then (s.1 && decide (pj d ≥ pk d), s.2 && decide (pk d ≥ pj d))
      else if minmax d < 0 then (s.1 && decide (pj d ≤ pk d), s.2 && decide (pk d ≤ pj d))
      else if minmax d > 0 then (s.1 && decide (pj d ≥ pk d), s.2 && decide (pk d ≥ pj d))
      else s)
    simp only at this
    rw [this.1, this.2]
    constructor <;> unfold leCoord <;> split_ifs <;> simp [and_assoc]

theorem leqPair_fst (dim : ℕ) (minmax : ℕ → ℤ) (agree : ℤ) (pj pk : ℕ → α) :
    (leqPair dim minmax agree pj pk).1 = true ↔ leRow dim minmax agree pj pk := by
  have := (leqPair_foldl minmax agree pj pk (List.range dim) (true, true)).1
  unfold leqPair leRow
  rw [this]; simp

theorem leqPair_snd (dim : ℕ) (minmax : ℕ → ℤ) (agree : ℤ) (pj pk : ℕ → α) :
    (leqPair dim minmax agree pj pk).2 = true ↔ leRow dim minmax agree pk pj := by
  have := (leqPair_foldl minmax agree pj pk (List.range dim) (true, true)).2
  unfold leqPair leRow
  rw [this]; simp

/-- Row `a` eliminates row `b` in the pairwise loop. -/
def Beats (dim : ℕ) (minmax : ℕ → ℤ) (agree : ℤ) (keep : Bool) (pts : ℕ → ℕ → α) (a b : ℕ) : Prop :=
  leRow dim minmax agree (pts a) (pts b) ∧
    (¬ leRow dim minmax agree (pts b) (pts a) ∨ (keep = false ∧ b < a))

section loop
variable (dim : ℕ) (minmax : ℕ → ℤ) (agree : ℤ) (keep : Bool) (pts : ℕ → ℕ → α)

theorem Beats.irrefl (a : ℕ) : ¬ Beats dim minmax agree keep pts a a := by
  rintro ⟨h, h' | ⟨_, h'⟩⟩
  · exact h' h
  · omega

theorem Beats.trans {a b c : ℕ} (h1 : Beats dim minmax agree keep pts a b)
    (h2 : Beats dim minmax agree keep pts b c) : Beats dim minmax agree keep pts a c := by
  obtain ⟨r1, s1⟩ := h1
  obtain ⟨r2, s2⟩ := h2
  refine ⟨leRow_trans dim minmax agree r1 r2, ?_⟩
  rcases s1 with s1 | ⟨k1, l1⟩
  · left; intro h; exact s1 (leRow_trans dim minmax agree r2 h)
  · rcases s2 with s2 | ⟨k2, l2⟩
    · left; intro h; exact s2 (leRow_trans dim minmax agree h r1)
    · right; exact ⟨k1, by omega⟩

theorem Beats.asymm {a b : ℕ} (h1 : Beats dim minmax agree keep pts a b) :
    ¬ Beats dim minmax agree keep pts b a :=
  fun h2 => Beats.irrefl dim minmax agree keep pts a (Beats.trans dim minmax agree keep pts h1 h2)

/-- every cleared row is beaten by a row that is still flagged -/
def NdInv (size : ℕ) (nd : ℕ → Bool) : Prop :=
  ∀ i < size, nd i = false → ∃ j < size, nd j = true ∧ Beats dim minmax agree keep pts j i

variable {dim minmax agree keep pts}

theorem ndk_iff {k j : ℕ} (hkj : k < j) :
    (!(leqPair dim minmax agree (pts j) (pts k)).1 ||
      (keep && (leqPair dim minmax agree (pts j) (pts k)).2)) = true ↔
      ¬ Beats dim minmax agree keep pts j k := by
  have h1 := leqPair_fst dim minmax agree (pts j) (pts k)
  have h2 := leqPair_snd dim minmax agree (pts j) (pts k)
  unfold Beats
  rw [← h1, ← h2]
  cases keep <;> cases (leqPair dim minmax agree (pts j) (pts k)).1 <;>
    cases (leqPair dim minmax agree (pts j) (pts k)).2 <;> simp [hkj]

theorem ndj_iff {k j : ℕ} (hkj : k < j) :
    (!(leqPair dim minmax agree (pts j) (pts k)).2 ||
      (leqPair dim minmax agree (pts j) (pts k)).1) = true ↔
      ¬ Beats dim minmax agree keep pts k j := by
  have h1 := leqPair_fst dim minmax agree (pts j) (pts k)
  have h2 := leqPair_snd dim minmax agree (pts j) (pts k)
  unfold Beats
  rw [← h1, ← h2]
  have : ¬ j < k := by omega
  cases (leqPair dim minmax agree (pts j) (pts k)).1 <;>
    cases (leqPair dim minmax agree (pts j) (pts k)).2 <;> simp [this]

theorem NdInv.step {size : ℕ} {nd : ℕ → Bool} {k j : ℕ} (hk : k < size) (hj : j < size) (hkj : k ≠ j)
    (ndk : nd k = true) (ndj : nd j = true) {bk bj : Bool}
    (hbk : bk = true ↔ ¬ Beats dim minmax agree keep pts j k)
    (hbj : bj = true ↔ ¬ Beats dim minmax agree keep pts k j)
    (h : NdInv dim minmax agree keep pts size nd) :
    NdInv dim minmax agree keep pts size (upd (upd nd k bk) j bj) := by
  intro i hi hfalse
  by_cases h1 : Beats dim minmax agree keep pts j k
  · have h2 := Beats.asymm _ _ _ _ _ h1
    have hbk' : bk = false := by
      cases hb : bk
      · rfl
      · exact absurd h1 (hbk.1 hb)
    have hbj' : bj = true := hbj.2 h2
    subst hbk' hbj'
    by_cases hij : i = j
    · subst hij; simp at hfalse
    by_cases hik : i = k
    · subst hik
      exact ⟨j, hj, by simp, h1⟩
    · simp [hij, hik] at hfalse
      obtain ⟨w, hw, hwt, hB⟩ := h i hi hfalse
      by_cases hwk : w = k
      · subst hwk
        exact ⟨j, hj, by simp, Beats.trans _ _ _ _ _ h1 hB⟩
      · refine ⟨w, hw, ?_, hB⟩
        by_cases hwj : w = j
        · subst hwj; simp
        · simp [hwj, hwk, hwt]
  · have hbk' : bk = true := hbk.2 h1
    subst hbk'
    by_cases h2 : Beats dim minmax agree keep pts k j
    · have hbj' : bj = false := by
        cases hb : bj
        · rfl
        · exact absurd h2 (hbj.1 hb)
      subst hbj'
      by_cases hij : i = j
      · subst hij
        exact ⟨k, hk, by simp [hkj], h2⟩
      by_cases hik : i = k
      · subst hik; simp [hij] at hfalse
      · simp [hij, hik] at hfalse
        obtain ⟨w, hw, hwt, hB⟩ := h i hi hfalse
        by_cases hwj : w = j
        · subst hwj
          exact ⟨k, hk, by simp [hkj], Beats.trans _ _ _ _ _ h2 hB⟩
        · refine ⟨w, hw, ?_, hB⟩
          by_cases hwk : w = k
          · subst hwk; simp [hwj]
          · simp [hwj, hwk, hwt]
    · have hbj' : bj = true := hbj.2 h2
      subst hbj'
      by_cases hij : i = j
      · subst hij; simp at hfalse
      by_cases hik : i = k
      · subst hik; simp [hij] at hfalse
      simp [hij, hik] at hfalse
      obtain ⟨w, hw, hwt, hB⟩ := h i hi hfalse
      refine ⟨w, hw, ?_, hB⟩
      by_cases hwj : w = j
      · subst hwj; simp
      · by_cases hwk : w = k
        · subst hwk; simp [hwj]
        · simp [hwj, hwk, hwt]

theorem ndInner_spec {size k : ℕ} (hk : k < size) (js : List ℕ) (hjs : ∀ j ∈ js, k < j ∧ j < size)
    (nd : ℕ → Bool) (hinv : NdInv dim minmax agree keep pts size nd) :
    ∃ nd', ndInner pts dim minmax agree false keep k js nd = .cont nd' ∧
      (∀ i, nd' i = true → nd i = true) ∧ NdInv dim minmax agree keep pts size nd' ∧
      (nd' k = true → ∀ j ∈ js, nd' j = true →
        ¬ Beats dim minmax agree keep pts j k ∧ ¬ Beats dim minmax agree keep pts k j) := by
  induction js generalizing nd with
  | nil => exact ⟨nd, rfl, fun _ h => h, hinv, by simp⟩
  | cons j js ih =>
    have hj := hjs j (by simp)
    have hjs' : ∀ j ∈ js, k < j ∧ j < size := fun x hx => hjs x (by simp [hx])
    unfold ndInner
    by_cases h1 : nd k = false
    · refine ⟨nd, by simp [h1], fun _ h => h, hinv, by simp [h1]⟩
    · have h1' : nd k = true := by simpa using h1
      by_cases h2 : nd j = false
      · obtain ⟨nd', e, m, i, c⟩ := ih hjs' nd hinv
        refine ⟨nd', by simp [h1', h2, e], m, i, ?_⟩
        intro hk' x hx hx'
        rcases List.mem_cons.1 hx with rfl | hx
        · have := m _ hx'; simp [h2] at this
        · exact c hk' x hx hx'
      · have h2' : nd j = true := by simpa using h2
        have hbk := ndk_iff (dim := dim) (minmax := minmax) (agree := agree) (keep := keep) (pts := pts) hj.1
        have hbj := ndj_iff (dim := dim) (minmax := minmax) (agree := agree) (keep := keep) (pts := pts) hj.1
        simp only [h1', h2', Bool.not_true, Bool.false_eq_true, if_false, Bool.false_and]
        generalize (!(leqPair dim minmax agree (pts j) (pts k)).1 ||
          (keep && (leqPair dim minmax agree (pts j) (pts k)).2)) = bk at hbk ⊢
        generalize (!(leqPair dim minmax agree (pts j) (pts k)).2 ||
          (leqPair dim minmax agree (pts j) (pts k)).1) = bj at hbj ⊢
        have hne : k ≠ j := by omega
        have hor : (bk || bj) = true := by
          by_cases hB : Beats dim minmax agree keep pts j k
          · have := hbj.2 (Beats.asymm _ _ _ _ _ hB); simp [this]
          · have := hbk.2 hB; simp [this]
        have hstep := NdInv.step (size := size) hk hj.2 hne h1' h2' hbk hbj hinv
        obtain ⟨nd', e, m, i, c⟩ := ih hjs' _ hstep
        refine ⟨nd', by simp [hor, e], ?_, i, ?_⟩
        · intro x hx
          have := m x hx
          by_cases hxj : x = j
          · subst hxj; exact h2'
          by_cases hxk : x = k
          · subst hxk; exact h1'
          simpa [hxj, hxk] using this
        · intro hk' x hx hx'
          rcases List.mem_cons.1 hx with rfl | hx
          · have a := m _ hk'
            have b := m _ hx'
            simp [hne] at a b
            exact ⟨hbk.1 a, hbj.1 b⟩
          · exact c hk' x hx hx'

theorem ndOuter_spec {size : ℕ} (ks : List ℕ) (hks : ∀ k ∈ ks, k < size)
    (nd : ℕ → Bool) (hinv : NdInv dim minmax agree keep pts size nd) :
    ∃ nd', ndOuter pts dim size minmax agree false keep ks nd = .cont nd' ∧
      (∀ i, nd' i = true → nd i = true) ∧ NdInv dim minmax agree keep pts size nd' ∧
      (∀ k ∈ ks, ∀ j, k < j → j < size → nd' k = true → nd' j = true →
        ¬ Beats dim minmax agree keep pts j k ∧ ¬ Beats dim minmax agree keep pts k j) := by
  induction ks generalizing nd with
  | nil => exact ⟨nd, rfl, fun _ h => h, hinv, by simp⟩
  | cons k ks ih =>
    obtain ⟨nd1, e1, m1, i1, c1⟩ := ndInner_spec (hks k (by simp))
      (List.range' (k + 1) (size - (k + 1)))
      (by intro j hj; rw [List.mem_range'_1] at hj; omega) nd hinv
    obtain ⟨nd2, e2, m2, i2, c2⟩ := ih (fun x hx => hks x (by simp [hx])) nd1 i1
    refine ⟨nd2, ?_, fun i h => m1 i (m2 i h), i2, ?_⟩
    · unfold ndOuter; rw [e1]; exact e2
    · intro x hx j hxj hj hnx hnj
      rcases List.mem_cons.1 hx with rfl | hx
      · exact c1 (m2 _ hnx) j (by rw [List.mem_range'_1]; omega) (m2 _ hnj)
      · exact c2 x hx j hxj hj hnx hnj

/-- The pairwise loop leaves exactly the rows that no row beats. -/
theorem ndOuter_final {size : ℕ} (nd : ℕ → Bool) (hnd : ∀ i < size, nd i = true) :
    ∃ nd', ndOuter pts dim size minmax agree false keep (List.range (size - 1)) nd = .cont nd' ∧
      ∀ i < size, nd' i = true ↔ ∀ j < size, ¬ Beats dim minmax agree keep pts j i := by
  have hinv : NdInv dim minmax agree keep pts size nd := by
    intro i hi h; simp [hnd i hi] at h
  obtain ⟨nd', e, m, i, c⟩ := ndOuter_spec (List.range (size - 1))
    (by intro k hk; rw [List.mem_range] at hk; omega) nd hinv
  refine ⟨nd', e, ?_⟩
  have pair : ∀ a b, a < size → b < size → nd' a = true → nd' b = true →
      ¬ Beats dim minmax agree keep pts a b := by
    intro a b ha hb hna hnb
    rcases lt_trichotomy a b with h | h | h
    · exact (c a (by rw [List.mem_range]; omega) b h hb hna hnb).2
    · subst h; exact Beats.irrefl _ _ _ _ _ a
    · exact (c b (by rw [List.mem_range]; omega) a h ha hnb hna).1
  intro x hx
  constructor
  · intro hnx j hj hB
    cases hnj : nd' j
    · obtain ⟨w, hw, hwt, hwB⟩ := i j hj hnj
      exact pair w x hw hx hwt hnx (Beats.trans _ _ _ _ _ hwB hB)
    · exact pair j x hj hx hnj hnx hB
  · intro hno
    cases hnx : nd' x
    · obtain ⟨w, hw, hwt, hwB⟩ := i x hx hnx
      exact absurd hwB (hno w hw)
    · rfl

/-! ## the search for one dominated point -/

theorem ndInner_find {size k : ℕ} (js : List ℕ) (hjs : ∀ j ∈ js, k < j ∧ j < size)
    (nd : ℕ → Bool) (hk : nd k = true) (hj : ∀ j ∈ js, nd j = true) :
    ((∀ j ∈ js, ¬ Beats dim minmax agree keep pts j k ∧ ¬ Beats dim minmax agree keep pts k j) ∧
      ∃ nd', ndInner pts dim minmax agree true keep k js nd = .cont nd' ∧ ∀ i, nd' i = nd i) ∨
    (∃ j ∈ js, ∃ nd', (Beats dim minmax agree keep pts j k ∧
        ndInner pts dim minmax agree true keep k js nd = .ret k nd') ∨
      (Beats dim minmax agree keep pts k j ∧
        ndInner pts dim minmax agree true keep k js nd = .ret j nd')) := by
  induction js generalizing nd with
  | nil => left; exact ⟨by simp, nd, rfl, fun _ => rfl⟩
  | cons j js ih =>
    have hj1 := hjs j (by simp)
    have hne : k ≠ j := by omega
    have hbk := ndk_iff (dim := dim) (minmax := minmax) (agree := agree) (keep := keep) (pts := pts) hj1.1
    have hbj := ndj_iff (dim := dim) (minmax := minmax) (agree := agree) (keep := keep) (pts := pts) hj1.1
    unfold ndInner
    simp only [hk, hj j (by simp), Bool.not_true, Bool.false_eq_true, if_false, Bool.true_and]
    generalize (!(leqPair dim minmax agree (pts j) (pts k)).1 ||
      (keep && (leqPair dim minmax agree (pts j) (pts k)).2)) = bk at hbk ⊢
    generalize (!(leqPair dim minmax agree (pts j) (pts k)).2 ||
      (leqPair dim minmax agree (pts j) (pts k)).1) = bj at hbj ⊢
    by_cases h1 : Beats dim minmax agree keep pts j k
    · have h2 := Beats.asymm _ _ _ _ _ h1
      have hb1 : bk = false := by
        cases hb : bk
        · rfl
        · exact absurd h1 (hbk.1 hb)
      have hb2 : bj = true := hbj.2 h2
      right
      refine ⟨j, by simp, upd (upd nd k bk) j bj, Or.inl ⟨h1, ?_⟩⟩
      simp [hb1, hb2]
    · have hb1 : bk = true := hbk.2 h1
      by_cases h2 : Beats dim minmax agree keep pts k j
      · have hb2 : bj = false := by
          cases hb : bj
          · rfl
          · exact absurd h2 (hbj.1 hb)
        right
        refine ⟨j, by simp, upd (upd nd k bk) j bj, Or.inr ⟨h2, ?_⟩⟩
        simp [hb1, hb2]
      · have hb2 : bj = true := hbj.2 h2
        subst hb1 hb2
        have hupd : upd (upd nd k true) j true = nd := by
          funext x
          simp only [upd_apply]
          split_ifs with a b
          · subst a; exact (hj _ (by simp)).symm
          · subst b; exact hk.symm
          · rfl
        simp only [Bool.or_self, Bool.not_true, Bool.false_eq_true, if_false, hupd]
        rcases ih (fun x hx => hjs x (by simp [hx])) nd hk (fun x hx => hj x (by simp [hx])) with h | h
        · left
          refine ⟨?_, h.2⟩
          intro x hx
          rcases List.mem_cons.1 hx with rfl | hx
          · exact ⟨h1, h2⟩
          · exact h.1 x hx
        · right
          obtain ⟨x, hx, h⟩ := h
          exact ⟨x, by simp [hx], h⟩

theorem ndOuter_find {size : ℕ} (ks : List ℕ) (hks : ∀ k ∈ ks, k < size)
    (nd : ℕ → Bool) (hnd : ∀ i < size, nd i = true) :
    ((∀ k ∈ ks, ∀ j, k < j → j < size →
        ¬ Beats dim minmax agree keep pts j k ∧ ¬ Beats dim minmax agree keep pts k j) ∧
      ∃ nd', ndOuter pts dim size minmax agree true keep ks nd = .cont nd') ∨
    (∃ a < size, ∃ b < size, ∃ nd', Beats dim minmax agree keep pts b a ∧
        ndOuter pts dim size minmax agree true keep ks nd = .ret a nd') := by
  induction ks generalizing nd with
  | nil => left; exact ⟨by simp, nd, rfl⟩
  | cons k ks ih =>
    have hk := hks k (by simp)
    have hmem : ∀ j ∈ List.range' (k + 1) (size - (k + 1)), k < j ∧ j < size := by
      intro j hj; rw [List.mem_range'_1] at hj; omega
    rcases ndInner_find (dim := dim) (minmax := minmax) (agree := agree) (keep := keep) (pts := pts)
      (List.range' (k + 1) (size - (k + 1))) hmem nd (hnd k hk) (fun j hj => hnd j (hmem j hj).2) with
      ⟨h, nd1, e1, he⟩ | ⟨j, hj, nd', h | h⟩
    · have hnd1 : ∀ i < size, nd1 i = true := fun i hi => by rw [he]; exact hnd i hi
      rcases ih (fun x hx => hks x (by simp [hx])) nd1 hnd1 with ⟨h', nd2, e2⟩ | ⟨a, ha, b, hb, nd2, hB, e2⟩
      · left
        refine ⟨?_, nd2, ?_⟩
        · intro x hx j hxj hj
          rcases List.mem_cons.1 hx with rfl | hx
          · exact h j (by rw [List.mem_range'_1]; omega)
          · exact h' x hx j hxj hj
        · unfold ndOuter; rw [e1]; exact e2
      · right
        refine ⟨a, ha, b, hb, nd2, hB, ?_⟩
        unfold ndOuter; rw [e1]; exact e2
    · right
      refine ⟨k, hk, j, (hmem j hj).2, nd', h.1, ?_⟩
      unfold ndOuter; rw [h.2]
    · right
      refine ⟨j, (hmem j hj).2, k, hk, nd', h.1, ?_⟩
      unfold ndOuter; rw [h.2]

end loop

end

/-! ## counting -/

theorem countFlags_eq (nd : ℕ → Bool) (size : ℕ) :
    countFlags nd size = ((List.range size).filter (fun i => nd i)).length := by
  unfold countFlags
  have : ∀ (l : List ℕ) (c : ℤ), l.foldl (fun c k => if nd k then c + 1 else c) c =
      c + ((l.filter (fun i => nd i)).length : ℤ) := by
    intro l
    induction l with
    | nil => intro c; simp
    | cons a l ih =>
      intro c
      rw [List.foldl_cons, ih]
      by_cases h : nd a = true
      · simp [h]; omega
      · simp [h]
  rw [this]; simp

end Moo
