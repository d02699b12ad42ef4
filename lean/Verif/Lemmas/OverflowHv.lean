import Verif.Lemmas.OverflowHv3d

/-!
# The recursion of the hypervolume computation with and without a largest exponent
-/

set_option autoImplicit false
set_option linter.unusedSectionVars false

namespace Moo

variable {x : ℕ → ℕ → ℝ} {ref : ℕ → ℝ} {f g : ℝ → ℝ} {N : List ℕ} {d m ν : ℕ} {pos : ℕ → ℕ → ℕ}

/-- The number of points before `q` in the order of objective `i`. -/
def ovRank (N : List ℕ) (pos : ℕ → ℕ → ℕ) (i q : ℕ) : ℕ := (N.filter (fun p => decide (pos i p < pos i q))).length

theorem ovRank_lt {i q q' : ℕ} (hq : q ∈ N) (h : pos i q < pos i q') : ovRank N pos i q + 1 ≤ ovRank N pos i q' := by
  unfold ovRank
  have hsub : (N.filter (fun p => decide (pos i p < pos i q))) = (N.filter (fun p => decide (pos i p < pos i q'))).filter (fun p => decide (pos i p < pos i q)) := by
    rw [List.filter_filter]
    refine List.filter_congr fun p _ => ?_
    by_cases hp : pos i p < pos i q
    · simp [hp, hp.trans h]
    · simp [hp]
  rw [hsub]
  refine Nat.lt_of_le_of_ne (List.length_filter_le _ _) fun he => ?_
  have := (List.length_filter_eq_length_iff.1 he) q (List.mem_filter.2 ⟨hq, by simpa using h⟩)
  simp at this

theorem ovRank_lt_length {i q : ℕ} (hq : q ∈ N) : ovRank N pos i q + 1 ≤ N.length := by
  unfold ovRank
  refine Nat.lt_of_le_of_ne (List.length_filter_le _ _) fun he => ?_
  have := (List.length_filter_eq_length_iff.1 he) q hq
  simp at this

/-- A bound for volumes in the first `i` objectives. -/
def OA (m ν i : ℕ) (a : ℝ) : Prop := |a| ≤ 2 ^ (i * (ν + m + 1) + 1)

/-- A bound for volumes in the first `i + 1` objectives, up to the point `q`. -/
def OV (m ν : ℕ) (N : List ℕ) (pos : ℕ → ℕ → ℕ) (i q : ℕ) (v : ℝ) : Prop := |v| ≤ (ovRank N pos i q : ℕ) * 2 ^ (i * (ν + m + 1) + 1 + (m + 1))

theorem OA.zero (m ν i : ℕ) : OA m ν i 0 := by unfold OA; rw [abs_zero]; positivity
theorem OV.zero (m ν : ℕ) (N : List ℕ) (pos : ℕ → ℕ → ℕ) (i q : ℕ) : OV m ν N pos i q 0 := by unfold OV; rw [abs_zero]; positivity

/-- Adding a slab. -/
theorem ov_slab (hd : OvData f g x ref N d m ν) {i : ℕ} (hi : i < d) {a v z z' : ℝ} {q : ℕ} (hv : OV m ν N pos i q v) (ha : OA m ν i a)
    (hz : |z| ≤ 2 ^ m) (hz' : |z'| ≤ 2 ^ m) (hq : q ∈ N) :
    f (v + f (a * f (z' - z))) = g (v + g (a * g (z' - z))) ∧
      |g (v + g (a * g (z' - z)))| ≤ (ovRank N pos i q + 1 : ℕ) * 2 ^ (i * (ν + m + 1) + 1 + (m + 1)) := by
  have hc := hd.capi (i := i + 1) (by omega)
  rw [Nat.succ_mul] at hc
  have hν := hd.ν52
  obtain ⟨z1, z2⟩ := hd.ag.sub m hz' hz (by omega)
  rw [z1]
  obtain ⟨m1, m2⟩ := hd.ag.op1 (z := a * g (z' - z)) (i * (ν + m + 1) + 1 + (m + 1)) ((abs_mul_le ha z2).trans (by rw [← pow_add])) (by omega)
  rw [m1]
  exact hd.ag.add (ovRank N pos i q) ν _ hv m2 ((ovRank_lt_length hq).trans hd.len) (by omega) (by omega)

theorem ov_vadd (hd : OvData f g x ref N d m ν) {i : ℕ} (hi : i < d) {a v : ℝ} {q q' : ℕ} (hv : OV m ν N pos i q v) (ha : OA m ν i a) (hq : q ∈ N)
    (hq' : q' ∈ N) (hlt : pos i q < pos i q') :
    f (v + f (a * f (x q' i - x q i))) = g (v + g (a * g (x q' i - x q i))) ∧ OV m ν N pos i q' (g (v + g (a * g (x q' i - x q i)))) := by
  obtain ⟨h1, h2⟩ := ov_slab hd hi hv ha (hd.pts q hq i hi) (hd.pts q' hq' i hi) hq
  refine ⟨h1, h2.trans (mul_le_mul_of_nonneg_right ?_ (by positivity))⟩
  exact_mod_cast ovRank_lt hq hlt

theorem ov_vtop (hd : OvData f g x ref N d m ν) {i : ℕ} (hi : i < d) {a v : ℝ} {q : ℕ} (hv : OV m ν N pos i q v) (ha : OA m ν i a) (hq : q ∈ N) :
    f (v + f (a * f (ref i - x q i))) = g (v + g (a * g (ref i - x q i))) ∧ OA m ν (i + 1) (g (v + g (a * g (ref i - x q i)))) := by
  obtain ⟨h1, h2⟩ := ov_slab hd hi hv ha (hd.pts q hq i hi) (hd.refb i hi) hq
  refine ⟨h1, (ov_total h2 ((ovRank_lt_length hq).trans hd.len)).trans (le_of_eq ?_)⟩
  congr 1; ring

/-- What is good stays good. -/
def OMono (m ν : ℕ) (N : List ℕ) (pos : ℕ → ℕ → ℕ) (S S' : HvState ℝ) : Prop :=
  (∀ i p, OA m ν i (S.area i p) → OA m ν i (S'.area i p)) ∧
    ∀ i p, OV m ν N pos i p (S.vol i p) → OV m ν N pos i p (S'.vol i p)

theorem OMono.of_eq {S S' : HvState ℝ} (ha : S'.area = S.area) (hv : S'.vol = S.vol) : OMono m ν N pos S S' :=
  ⟨fun i p h => by rw [ha]; exact h, fun i p h => by rw [hv]; exact h⟩

theorem OMono.trans {S1 S2 S3 : HvState ℝ} (h1 : OMono m ν N pos S1 S2) (h2 : OMono m ν N pos S2 S3) : OMono m ν N pos S1 S3 :=
  ⟨fun i p h => h2.1 i p (h1.1 i p h), fun i p h => h2.2 i p (h1.2 i p h)⟩

theorem OMono.of_area {S S' : HvState ℝ} {i p : ℕ} {v : ℝ} (ha : S'.area = upd2 S.area i p v) (hv : S'.vol = S.vol) (hg : OA m ν i v) :
    OMono m ν N pos S S' := by
  refine ⟨fun i' p' h => ?_, fun i p h => by rw [hv]; exact h⟩
  rw [ha, upd2_at]
  split
  · rename_i h'; rw [h'.1]; exact hg
  · exact h

theorem OMono.of_vol {S S' : HvState ℝ} {i p : ℕ} {v : ℝ} (ha : S'.area = S.area) (hv : S'.vol = upd2 S.vol i p v) (hg : OV m ν N pos i p v) :
    OMono m ν N pos S S' := by
  refine ⟨fun i p h => by rw [ha]; exact h, fun i' p' h => ?_⟩
  rw [hv, upd2_at]
  split
  · rename_i h'; rw [h'.1, h'.2]; exact hg
  · exact h

/-- The stored areas and volumes that may be used are good. -/
def CacheOv (x : ℕ → ℕ → ℝ) (m ν : ℕ) (N : List ℕ) (pos : ℕ → ℕ → ℕ) (j : ℕ) (A : List ℕ) (S : HvState ℝ) : Prop :=
  ∀ i, 3 ≤ i → i ≤ j → ∀ q ∈ A, x q i < S.bound i → OA m ν i (S.area i q) ∧ OV m ν N pos i q (S.vol i q)

theorem CacheOv.mono {j : ℕ} {A : List ℕ} {S S' : HvState ℝ} (h : CacheOv x m ν N pos j A S) (hm : OMono m ν N pos S S')
    (hb : ∀ i, 3 ≤ i → i ≤ j → S'.bound i ≤ S.bound i) : CacheOv x m ν N pos j A S' := by
  intro i h3 hi q hq hlt
  obtain ⟨h1, h2⟩ := h i h3 hi q hq (lt_of_lt_of_le hlt (hb i h3 hi))
  exact ⟨hm.1 i q h1, hm.2 i q h2⟩

/-- The areas of the list head are good. -/
def HeadOv (m ν : ℕ) (d : ℕ) (S : HvState ℝ) : Prop := ∀ i < d, OA m ν i (S.area i 0)

theorem HeadOv.mono {S S' : HvState ℝ} (h : HeadOv m ν d S) (hm : OMono m ν N pos S S') : HeadOv m ν d S' :=
  fun i hi => hm.1 i 0 (h i hi)

/-- The rounded run `recF` does what the exact run `rec` does. -/
def OvRec (x : ℕ → ℕ → ℝ) (m ν : ℕ) (pos : ℕ → ℕ → ℕ) (N : List ℕ) (d j : ℕ)
    (recF rec : ℕ → HvState ℝ → ℝ × HvState ℝ) : Prop :=
  ∀ (A : List ℕ) (S : HvState ℝ), HvLists pos N.length j A S → (∀ p ∈ A, p ∈ N) → HeadOv m ν d S → CacheOv x m ν N pos j A S →
    recF A.length S = rec A.length S ∧ OA m ν (j + 1) (rec A.length S).1 ∧ links (rec A.length S).2 = links S ∧
      OMono m ν N pos S (rec A.length S).2 ∧ CacheOv x m ν N pos j A (rec A.length S).2 ∧ ∀ i, j < i → (rec A.length S).2.bound i = S.bound i


theorem ov_base (hd : OvData f g x ref N d m ν) (hd3 : 3 ≤ d) : OvRec x m ν pos N d 2 (hv3dRefF f x ref) (hv3dRefF g x ref) := by
  intro A S hA hAN hhead _
  obtain ⟨l, hmem, hl, hlink⟩ := hA.lists 2 (le_refl _) (le_refl _)
  have hlen : l.length = A.length := length_eq_of_mem_iff (pairwise_pos_nodup hl) hA.nodup hmem
  have hlN : ∀ p ∈ l, p ∈ N := fun p hp => hAN p ((hmem p).1 hp)
  have hlen2 := hA.len
  obtain ⟨e1, e2⟩ := hv3dRefF_agree hd hd3 S A.length (l := l) (by rintro rfl; exact hA.ne (List.length_eq_zero_iff.1 hlen.symm))
    (fun hz => hA.zero ((hmem 0).1 hz)) hlink hlN ((by omega : l.length ≤ N.length).trans hd.len) hlen.symm
  obtain ⟨ig, hr⟩ := hv3dRefF_rest g x ref A.length S
  refine ⟨e1, e2.trans (pow_le_pow_right₀ (by norm_num) (by omega)), by rw [hr]; rfl, OMono.of_eq (by rw [hr]) (by rw [hr]), ?_, fun i _ => by rw [hr]⟩
  intro i h3 h2; omega

variable {j : ℕ} {l : List ℕ} {S0 : HvState ℝ}

theorem ov_skip {recF rec : ℕ → HvState ℝ → ℝ × HvState ℝ} (hrec : OvRec x m ν pos N d j recF rec) {A : List ℕ} {S : HvState ℝ}
    (hA : HvLists pos N.length j A S) (hAN : ∀ p ∈ A, p ∈ N) (hhead : HeadOv m ν d S) (hcd : CacheOv x m ν N pos j A S) {p : ℕ}
    (hpa : OA m ν (j + 1) (S.area (j + 1) (S.prev (j + 1) p))) :
    skipOrRecurse recF (j + 1) A.length p S = skipOrRecurse rec (j + 1) A.length p S ∧
      links (skipOrRecurse rec (j + 1) A.length p S) = links S ∧ OMono m ν N pos S (skipOrRecurse rec (j + 1) A.length p S) ∧
      CacheOv x m ν N pos j A (skipOrRecurse rec (j + 1) A.length p S) ∧
      (∀ i, j < i → (skipOrRecurse rec (j + 1) A.length p S).bound i = S.bound i) ∧
      OA m ν (j + 1) ((skipOrRecurse rec (j + 1) A.length p S).area (j + 1) p) := by
  unfold skipOrRecurse
  by_cases hig : S.ignore p ≥ j + 1
  · simp only [if_pos hig]
    have hm : OMono m ν N pos S { S with area := upd2 S.area (j + 1) p (S.area (j + 1) (S.prev (j + 1) p)) } := OMono.of_area rfl rfl hpa
    refine ⟨trivial, rfl, hm, hcd.mono hm (fun _ _ _ => le_refl _), fun _ _ => trivial, ?_⟩
    rw [upd2_at, if_pos ⟨rfl, rfl⟩]; exact hpa
  · obtain ⟨e1, g1, l1, m1, c1, b1⟩ := hrec A S hA hAN hhead hcd
    simp only [if_neg hig, e1]
    have hm2 : OMono m ν N pos (rec A.length S).2 { (rec A.length S).2 with area := upd2 (rec A.length S).2.area (j + 1) p (rec A.length S).1 } :=
      OMono.of_area rfl rfl g1
    have hgp : OA m ν (j + 1) (upd2 (rec A.length S).2.area (j + 1) p (rec A.length S).1 (j + 1) p) := by
      rw [upd2_at, if_pos ⟨rfl, rfl⟩]; exact g1
    refine ⟨trivial, ?_⟩
    split
    · exact ⟨l1, m1.trans (hm2.trans (OMono.of_eq rfl rfl)), c1.mono (hm2.trans (OMono.of_eq rfl rfl)) (fun _ _ _ => le_refl _), b1, hgp⟩
    · exact ⟨l1, m1.trans hm2, c1.mono hm2 (fun _ _ _ => le_refl _), b1, hgp⟩

/-- The loop that deletes nodes. -/
theorem ov_delLoop (hsort : ∀ p ∈ l, ∀ q ∈ l, pos (j + 1) p < pos (j + 1) q → x p (j + 1) ≤ x q (j + 1))
    (hc : LvlLinks pos N.length j l S0) (b : ℝ) : ∀ (c : ℕ) (r s : List ℕ) (S : HvState ℝ), r.length = c → r ≠ [] →
    l = r ++ s → links S = delLinks (j + 1) (links S0) s → S.area = S0.area → S.vol = S0.vol → S.bound (j + 1) = b →
    (∀ i, j + 1 < i → S.bound i = S0.bound i) → CacheOv x m ν N pos j r S →
    ∃ (r' : List ℕ) (p1 : ℕ) (s' : List ℕ) (S' : HvState ℝ),
      hvDelLoop x (j + 1) c (s.headD 0) (lastD 0 r) S = (r'.length + 1, s'.headD 0, p1, S') ∧
      l = r' ++ p1 :: s' ∧ links S' = delLinks (j + 1) (links S0) s' ∧ S'.area = S0.area ∧ S'.vol = S0.vol ∧
      (∀ i, j + 1 < i → S'.bound i = S0.bound i) ∧ CacheOv x m ν N pos j (r' ++ [p1]) S' ∧ ∀ q ∈ r', x q (j + 1) < b := by
  intro c
  induction c with
  | zero =>
    intro r s S hlen hne
    exact absurd (List.length_eq_zero_iff.1 hlen) hne
  | succ c ih =>
    intro r s S hlen hne hl hlnk ha hv hb hbi hcd
    rcases List.eq_nil_or_concat r with rfl | ⟨r', p1, rfl⟩
    · exact absurd rfl hne
    rw [List.concat_eq_append] at *
    have hl' : l = r' ++ p1 :: s := by rw [hl]; simp
    have hlen' : r'.length = c := by simp at hlen; exact hlen
    have hj2 := hc.j2
    have hprev : S.prev (j + 1) p1 = lastD 0 r' := by
      have h1 := delLinks_of_not (j + 1) (links S0) s (j + 1) (by omega)
      have h2 : S.prev = (delLinks (j + 1) (links S0) s).2 := congrArg Prod.snd hlnk
      have hat := LinkedFrom.at (hl' ▸ hc.link : Linked _ _ (r' ++ p1 :: s))
      rw [h2, h1.2]; exact hat.1
    rw [lastD_append_singleton]
    unfold hvDelLoop
    by_cases hcond : c + 1 > 1 ∧ (x p1 (j + 1) > S.bound (j + 1) ∨ x (S.prev (j + 1) p1) (j + 1) ≥ S.bound (j + 1))
    · rw [if_pos hcond]
      have hlnk1 : links (hvDelete x p1 (j + 1) S) = delLinks (j + 1) (links S0) (p1 :: s) := by
        rw [links_hvDelete p1 (j + 1) (by omega), hlnk]; rfl
      have hprev1 : (hvDelete x p1 (j + 1) S).prev (j + 1) p1 = lastD 0 r' := by
        have h := delLinks_of_not (j + 1) (links S0) (p1 :: s) (j + 1) (by omega)
        have h2 : (hvDelete x p1 (j + 1) S).prev = (delLinks (j + 1) (links S0) (p1 :: s)).2 := congrArg Prod.snd hlnk1
        have hat := LinkedFrom.at (hl' ▸ hc.link : Linked _ _ (r' ++ p1 :: s))
        rw [h2, h.2]; exact hat.1
      obtain ⟨-, a1, v1, hbd⟩ := hvDelete_rest (x := x) p1 (j + 1) (by omega) S
      have hne' : r' ≠ [] := by
        intro he
        rw [he] at hlen'
        simp at hlen'
        omega
      dsimp only
      rw [hprev1]
      refine ih r' (p1 :: s) _ hlen' hne' hl' hlnk1 (a1.trans ha) (v1.trans hv) ?_ ?_ ?_
      · rw [hbd, if_neg (by omega)]; exact hb
      · intro i hi
        rw [hbd, if_neg (by omega)]; exact hbi i hi
      · have : CacheOv x m ν N pos j (r' ++ [p1]) (hvDelete x p1 (j + 1) S) := by
          refine hcd.mono (OMono.of_eq a1 v1) ?_
          intro i h3 hi
          rw [hbd, if_pos (by omega)]
          exact min_le_left _ _
        intro i h3 hi q hq
        exact this i h3 hi q (List.mem_append_left _ hq)
    · rw [if_neg hcond]
      refine ⟨r', p1, s, S, by rw [hlen'], hl', hlnk, ha, hv, hbi, hcd, ?_⟩
      intro q hq
      have hm : c + 1 > 1 := by
        have := List.length_pos_of_mem hq
        omega
      have hx : ¬ x (S.prev (j + 1) p1) (j + 1) ≥ S.bound (j + 1) := fun hh => hcond ⟨hm, Or.inr hh⟩
      rw [hprev, hb] at hx
      refine lt_of_le_of_lt ?_ (not_le.1 hx)
      rcases List.eq_nil_or_concat r' with rfl | ⟨r2, p2, rfl⟩
      · simp at hq
      · rw [List.concat_eq_append] at *
        rw [lastD_append_singleton] at *
        rcases List.mem_append.1 hq with hq | hq
        · have hpw := hc.sorted
          rw [hl'] at hpw
          have := (List.pairwise_append.1 (List.pairwise_append.1 hpw).1).2.2 q hq p2 (by simp)
          exact hsort q (by rw [hl']; simp [hq]) p2 (by rw [hl']; simp) this
        · simp at hq; rw [hq]


/-- The products for one point. -/
theorem ov_box (hd : OvData f g x ref N d m ν) {p : ℕ} (hp : p ∈ N) : ∀ i ≤ d,
    boxProductF f x ref p i = boxProductF g x ref p i ∧ OA m ν i (boxProductF g x ref p i)
  | 0, _ => ⟨rfl, by unfold OA boxProductF; norm_num⟩
  | i + 1, hi => by
    obtain ⟨h1, h2⟩ := ov_box hd hp i (by omega)
    have hc := hd.capi hi
    rw [Nat.succ_mul] at hc
    obtain ⟨z1, z2⟩ := hd.ag.sub m (hd.refb i (by omega)) (hd.pts p hp i (by omega)) (by omega)
    unfold boxProductF
    rw [h1, z1]
    have hb : |boxProductF g x ref p i * g (ref i - x p i)| ≤ 2 ^ ((i + 1) * (ν + m + 1) + 1) := by
      refine (abs_mul_le h2 z2).trans ?_
      rw [← pow_add]
      exact pow_le_pow_right₀ (by norm_num) (by rw [Nat.succ_mul]; omega)
    exact hd.ag.op1 _ hb (by rw [Nat.succ_mul]; omega)

theorem hvAreaInitF_rest (g : ℝ → ℝ) (x : ℕ → ℕ → ℝ) (ref : ℕ → ℝ) (p1 i : ℕ) (S : HvState ℝ) :
    (∃ ar, hvAreaInitF g x ref p1 i S = { S with area := ar }) ∧
    ∀ j q, (hvAreaInitF g x ref p1 i S).area j q = if q = p1 ∧ j ≤ i then boxProductF g x ref p1 j else S.area j q := by
  induction i with
  | zero =>
    refine ⟨⟨_, rfl⟩, fun j q => ?_⟩
    show upd2 S.area 0 p1 1 j q = _
    rw [upd2_at]
    by_cases hh : j = 0 ∧ q = p1
    · rw [if_pos hh, if_pos ⟨hh.2, by omega⟩, hh.1]; rfl
    · rw [if_neg hh, if_neg (fun h => hh ⟨by omega, h.1⟩)]
  | succ i ih =>
    obtain ⟨⟨ar, har⟩, ihv⟩ := ih
    constructor
    · exact ⟨_, by unfold hvAreaInitF; dsimp only; rw [har]⟩
    · intro j q
      show upd2 (hvAreaInitF g x ref p1 i S).area (i + 1) p1 (g ((hvAreaInitF g x ref p1 i S).area i p1 * g (ref i - x p1 i))) j q = _
      rw [upd2_at, ihv i p1, if_pos (show p1 = p1 ∧ i ≤ i from ⟨rfl, le_refl _⟩)]
      by_cases hh : j = i + 1 ∧ q = p1
      · rw [if_pos hh, if_pos ⟨hh.2, by omega⟩, hh.1]; rfl
      · rw [if_neg hh, ihv]
        by_cases h2 : q = p1 ∧ j ≤ i
        · rw [if_pos h2, if_pos ⟨h2.1, by omega⟩]
        · rw [if_neg h2, if_neg (fun h => ?_)]
          have : ¬ j ≤ i := fun hji => h2 ⟨h.1, hji⟩
          exact hh ⟨by omega, h.1⟩

theorem ov_areaInit (hd : OvData f g x ref N d m ν) {p : ℕ} (hp : p ∈ N) (S : HvState ℝ) : ∀ i ≤ d,
    hvAreaInitF f x ref p i S = hvAreaInitF g x ref p i S
  | 0, _ => rfl
  | i + 1, hi => by
    have h1 := ov_areaInit hd hp S i (by omega)
    have h2 : (hvAreaInitF g x ref p i S).area i p = boxProductF g x ref p i := by
      rw [(hvAreaInitF_rest g x ref p i S).2, if_pos ⟨rfl, le_refl _⟩]
    have h3 := (ov_box hd hp (i + 1) hi).1
    unfold boxProductF at h3
    rw [(ov_box hd hp i (by omega)).1] at h3
    unfold hvAreaInitF
    rw [h1]
    dsimp only
    rw [h2, h3]

/-- The loop that inserts the deleted nodes again. -/
theorem ov_mainLoop (hd : OvData f g x ref N d m ν) {recF rec : ℕ → HvState ℝ → ℝ × HvState ℝ}
    (hrec : OvRec x m ν pos N d j recF rec) (hjd : j + 1 < d) (hlN : ∀ p ∈ l, p ∈ N)
    (hc : LvlLinks pos N.length j l S0) :
    ∀ (s r' : List ℕ) (p1 fuel c : ℕ) (hyperv : ℝ) (S : HvState ℝ), l = r' ++ p1 :: s → s.length ≤ fuel → c = r'.length + 1 →
      links S = delLinks (j + 1) (links S0) s → HeadOv m ν d S → CacheOv x m ν N pos j (r' ++ [p1]) S →
      (∀ q ∈ r' ++ [p1], OA m ν (j + 1) (S.area (j + 1) q) ∧ OV m ν N pos (j + 1) q (S.vol (j + 1) q)) →
      OV m ν N pos (j + 1) p1 hyperv →
      hvMainLoopF f recF x (j + 1) fuel c (s.headD 0) p1 hyperv S = hvMainLoopF g rec x (j + 1) fuel c (s.headD 0) p1 hyperv S ∧
        links (hvMainLoopF g rec x (j + 1) fuel c (s.headD 0) p1 hyperv S).2.2 = links S0 ∧
        OMono m ν N pos S (hvMainLoopF g rec x (j + 1) fuel c (s.headD 0) p1 hyperv S).2.2 ∧
        CacheOv x m ν N pos j l (hvMainLoopF g rec x (j + 1) fuel c (s.headD 0) p1 hyperv S).2.2 ∧
        (∀ q ∈ l, OA m ν (j + 1) ((hvMainLoopF g rec x (j + 1) fuel c (s.headD 0) p1 hyperv S).2.2.area (j + 1) q) ∧
          OV m ν N pos (j + 1) q ((hvMainLoopF g rec x (j + 1) fuel c (s.headD 0) p1 hyperv S).2.2.vol (j + 1) q)) ∧
        (hvMainLoopF g rec x (j + 1) fuel c (s.headD 0) p1 hyperv S).2.1 ∈ l ∧
        OV m ν N pos (j + 1) (hvMainLoopF g rec x (j + 1) fuel c (s.headD 0) p1 hyperv S).2.1
          (hvMainLoopF g rec x (j + 1) fuel c (s.headD 0) p1 hyperv S).1 ∧
        ∀ i, j + 1 < i → (hvMainLoopF g rec x (j + 1) fuel c (s.headD 0) p1 hyperv S).2.2.bound i = S.bound i := by
  intro s
  induction s with
  | nil =>
    intro r' p1 fuel c hyperv S hl hf hcl hlnk hh hcd hdef hv
    have hres : hvMainLoopF g rec x (j + 1) fuel c (([] : List ℕ).headD 0) p1 hyperv S = (hyperv, p1, S) := by
      cases fuel with
      | zero => rfl
      | succ f => unfold hvMainLoopF; rw [if_pos (by rfl)]
    have hresF : hvMainLoopF f recF x (j + 1) fuel c (([] : List ℕ).headD 0) p1 hyperv S = (hyperv, p1, S) := by
      cases fuel with
      | zero => rfl
      | succ f => unfold hvMainLoopF; rw [if_pos (by rfl)]
    rw [hres, hresF]
    exact ⟨rfl, hlnk, OMono.of_eq rfl rfl, hl ▸ hcd, hl ▸ hdef, by rw [hl]; simp, hv, fun _ _ => rfl⟩
  | cons p0 s ih =>
    intro r' p1 fuel c hyperv S hl hf hcl hlnk hh hcd hdef hv
    obtain ⟨f, rfl⟩ : ∃ f, fuel = f + 1 := ⟨fuel - 1, by simp at hf; omega⟩
    have hj2 := hc.j2
    have hnd := pairwise_pos_nodup hc.sorted
    have hl' : l = (r' ++ [p1]) ++ p0 :: s := by rw [hl]; simp
    have hl'' : l = (r' ++ [p1] ++ [p0]) ++ s := by rw [hl]; simp
    have hp0l : p0 ∈ l := by rw [hl]; simp
    have hp1l : p1 ∈ l := by rw [hl]; simp
    have hp0 : ¬ p0 = 0 := fun hz => hc.zero (hz ▸ hp0l)
    have hle : pos (j + 1) p1 < pos (j + 1) p0 := by
      have hpw := hc.sorted
      rw [hl] at hpw
      exact (List.pairwise_cons.1 (List.pairwise_append.1 hpw).2.1).1 p0 (by simp)
    obtain ⟨eV, gV⟩ := ov_vadd hd hjd hv (hdef p1 (by simp)).1 (hlN p1 hp1l) (hlN p0 hp0l) hle
    unfold hvMainLoopF
    rw [if_neg (show ¬ (p0 :: s).headD 0 = 0 from hp0), if_neg (show ¬ (p0 :: s).headD 0 = 0 from hp0)]
    dsimp only [List.headD_cons]
    rw [eV]
    set S1 : HvState ℝ := { S with bound := upd S.bound (j + 1) (x p0 (j + 1)) } with hS1
    obtain ⟨-, a2, v2, hbd⟩ := hvReinsert_rest (x := x) p0 (j + 1) (by omega) S1
    set S2 := hvReinsert x p0 (j + 1) S1 with hS2
    have hlnk2 : links S2 = delLinks (j + 1) (links S0) s := by
      rw [hS2, links_hvReinsert p0 (j + 1) (by omega)]
      have : links S1 = links S := rfl
      rw [this, hlnk]
      exact relink_delLinks (j + 1) (links S0) p0 s (r' ++ [p1]) (hl' ▸ hnd) (hl' ▸ hc.zero) (fun i h2 hi => hl' ▸ hc.lists i h2 hi)
    have hat := LinkedFrom.at (hl' ▸ hc.link : Linked _ _ ((r' ++ [p1]) ++ p0 :: s))
    have hnext : S2.next (j + 1) p0 = s.headD 0 := by
      have hh := delLinks_of_not (j + 1) (links S0) s (j + 1) (by omega)
      have h2 : S2.next = (delLinks (j + 1) (links S0) s).1 := congrArg Prod.fst hlnk2
      rw [h2, hh.1]; exact hat.2.2.1
    have hprev : S2.prev (j + 1) p0 = p1 := by
      have hh := delLinks_of_not (j + 1) (links S0) s (j + 1) (by omega)
      have h2 : S2.prev = (delLinks (j + 1) (links S0) s).2 := congrArg Prod.snd hlnk2
      rw [h2, hh.2]
      have := hat.1
      rw [lastD_append_singleton] at this
      exact this
    set V := g (hyperv + g (S.area (j + 1) p1 * g (x p0 (j + 1) - x p1 (j + 1)))) with hV
    set S3 : HvState ℝ := { S2 with vol := upd2 S2.vol (j + 1) p0 V } with hS3
    have hm3 : OMono m ν N pos S S3 := (OMono.of_eq (S' := S2) a2 v2).trans (OMono.of_vol rfl rfl gV)
    have hlists := hc.hvLists (S := S3) hl'' (by simp) hlnk2
    have hbnd3 : ∀ i, 2 ≤ i → i ≤ j → S3.bound i = min (S.bound i) (x p0 i) := by
      intro i h2 hi
      show S2.bound i = _
      rw [hbd, if_pos (by omega)]
      show min (upd S.bound (j + 1) (x p0 (j + 1)) i) _ = _
      rw [upd_ne _ _ (by omega)]
    have hcd3 : CacheOv x m ν N pos j (r' ++ [p1] ++ [p0]) S3 := by
      intro i h3' hi q hq hlt
      rw [hbnd3 i (by omega) hi] at hlt
      rcases List.mem_append.1 hq with hq | hq
      · have := hcd i h3' hi q hq (lt_of_lt_of_le hlt (min_le_left _ _))
        exact ⟨hm3.1 _ _ this.1, hm3.2 _ _ this.2⟩
      · simp at hq
        rw [hq] at hlt
        exact absurd (lt_of_lt_of_le hlt (min_le_right _ _)) (lt_irrefl _)
    have hpa : OA m ν (j + 1) (S3.area (j + 1) (S3.prev (j + 1) p0)) := by
      have : S3.prev (j + 1) p0 = p1 := hprev
      rw [this]; exact hm3.1 _ _ (hdef p1 (by simp)).1
    obtain ⟨e4, l4, m4, c4, b4, d4⟩ := ov_skip hrec hlists (fun p hp => hlN p (by rw [hl'']; exact List.mem_append_left _ hp))
      (hh.mono hm3) hcd3 hpa
    have hlen : c + 1 = (r' ++ [p1] ++ [p0]).length := by rw [hcl]; simp
    rw [hlen, hnext, e4]
    have hdef4 : ∀ q ∈ (r' ++ [p1]) ++ [p0], OA m ν (j + 1) ((skipOrRecurse rec (j + 1) (r' ++ [p1] ++ [p0]).length p0 S3).area (j + 1) q) ∧
        OV m ν N pos (j + 1) q ((skipOrRecurse rec (j + 1) (r' ++ [p1] ++ [p0]).length p0 S3).vol (j + 1) q) := by
      intro q hq
      rcases List.mem_append.1 hq with hq | hq
      · have := hdef q hq
        exact ⟨m4.1 _ _ (hm3.1 _ _ this.1), m4.2 _ _ (hm3.2 _ _ this.2)⟩
      · simp at hq
        rw [hq]
        refine ⟨d4, m4.2 _ _ ?_⟩
        show OV m ν N pos (j + 1) p0 (upd2 S2.vol (j + 1) p0 V (j + 1) p0)
        rw [upd2_at, if_pos ⟨rfl, rfl⟩]; exact gV
    obtain ⟨e5, l5, m5, c5, d5, p5, v5, b5⟩ := ih (r' ++ [p1]) p0 f (r' ++ [p1] ++ [p0]).length V _ hl'
      (by simp at hf; omega) (by simp) (l4.trans hlnk2) (hh.mono (hm3.trans m4)) c4 hdef4 gV
    refine ⟨e5, l5, hm3.trans (m4.trans m5), c5, d5, p5, v5, ?_⟩
    intro i hi
    rw [b5 i hi, b4 i (by omega)]
    show S2.bound i = _
    rw [hbd, if_neg (by omega)]
    exact upd_ne _ _ (by omega)

/-- One level of the recursion. -/
theorem ov_level (hd : OvData f g x ref N d m ν) {recF rec : ℕ → HvState ℝ → ℝ × HvState ℝ}
    (hrec : OvRec x m ν pos N d j recF rec) (hj2 : 2 ≤ j) (hjd : j + 1 < d)
    (hsort : ∀ i < d, ∀ p ∈ N, ∀ q ∈ N, pos i p < pos i q → x p i ≤ x q i) :
    OvRec x m ν pos N d (j + 1) (hvLevelF f recF x ref (j + 1)) (hvLevelF g rec x ref (j + 1)) := by
  intro A S hA hAN hh hcd
  obtain ⟨l, hmem, hsorted, hlink⟩ := hA.lists (j + 1) (by omega) (le_refl _)
  have hlen : l.length = A.length := length_eq_of_mem_iff (pairwise_pos_nodup hsorted) hA.nodup hmem
  have hlen2 := hA.len
  have hlne : l ≠ [] := by
    rintro rfl
    exact hA.ne (List.length_eq_zero_iff.1 hlen.symm)
  have h0 : 0 ∉ l := fun hz => hA.zero ((hmem 0).1 hz)
  have hlN : ∀ p ∈ l, p ∈ N := fun p hp => hAN p ((hmem p).1 hp)
  have hsl : ∀ p ∈ l, ∀ q ∈ l, pos (j + 1) p < pos (j + 1) q → x p (j + 1) ≤ x q (j + 1) :=
    fun p hp q hq => hsort _ hjd p (hlN p hp) q (hlN q hq)
  have hc : LvlLinks pos N.length j l S :=
    { j2 := hj2, sorted := hsorted, zero := h0, len := by omega, link := hlink
      lists := by
        intro i h2 hi
        obtain ⟨m, hm1, hm2, hm3⟩ := hA.lists i h2 (by omega)
        exact ⟨m, fun p => (hm1 p).trans (hmem p).symm, hm2, hm3⟩ }
  have hp0 : S.prev (j + 1) 0 = lastD 0 l := LinkedFrom.last hlink
  have hreset := hvReset_spec (j + 1) l [] A.length S (by rw [List.append_nil]; exact hlink) h0 (pairwise_pos_nodup hsorted) (by omega) rfl
  set S1 : HvState ℝ := { S with ignore := fun p => if p ∈ l ∧ S.ignore p < j + 1 then 0 else S.ignore p } with hS1
  have hcd1 : CacheOv x m ν N pos (j + 1) l S1 := fun i h3 hi q hq hlt => hcd i h3 hi q ((hmem q).1 hq) hlt
  have hc1 : LvlLinks pos N.length j l S1 :=
    { j2 := hc.j2, sorted := hc.sorted, zero := hc.zero, len := hc.len, link := hc.link, lists := hc.lists }
  obtain ⟨r', p1, s', S2, g1, g2, g3, a2, v2, b2, c2, x2⟩ := ov_delLoop hsl hc1 (S1.bound (j + 1)) A.length l [] S1
    hlen hlne (by rw [List.append_nil]) rfl rfl rfl rfl (fun _ _ => rfl) (fun i h3 hi q hq => hcd1 i h3 (by omega) q hq)
  rw [List.headD_nil] at g1
  have hdefR : ∀ q ∈ r', OA m ν (j + 1) (S2.area (j + 1) q) ∧ OV m ν N pos (j + 1) q (S2.vol (j + 1) q) := by
    intro q hq
    rw [a2, v2]
    exact hcd1 (j + 1) (by omega) (le_refl _) q (by rw [g2]; exact List.mem_append_left _ hq) (x2 q hq)
  have hp1l : p1 ∈ l := by rw [g2]; simp
  have hlistsR : ∀ S3 : HvState ℝ, links S3 = links S2 → HvLists pos N.length j (r' ++ [p1]) S3 := fun S3 h3 =>
    hc.hvLists (s := s') (by rw [g2]; simp) (by simp) (h3.trans g3)
  have hlenR : r'.length + 1 = (r' ++ [p1]).length := by simp
  have hprev : S2.prev (j + 1) p1 = lastD 0 r' := by
    have hh := delLinks_of_not (j + 1) (links S) s' (j + 1) (by omega)
    have h2 : S2.prev = (delLinks (j + 1) (links S) s').2 := congrArg Prod.snd g3
    have hat := LinkedFrom.at (g2 ▸ hlink : Linked _ _ (r' ++ p1 :: s'))
    rw [h2, hh.2]; exact hat.1
  have hRN : ∀ p ∈ r' ++ [p1], p ∈ N := by
    intro p hp
    refine hlN p ?_
    rw [g2]
    rcases List.mem_append.1 hp with hp | hp
    · exact List.mem_append_left _ hp
    · simp at hp; rw [hp]; simp
  have hmono2 : OMono m ν N pos S S2 := OMono.of_eq a2 v2
  -- the rest of the level, from the state with `vol` of `p1` set
  have tail : ∀ (V : ℝ) (S3 : HvState ℝ), links S3 = links S2 → S3.bound = S2.bound → OMono m ν N pos S2 S3 →
      OV m ν N pos (j + 1) p1 (S3.vol (j + 1) p1) → OV m ν N pos (j + 1) p1 V →
      ∀ mF M, mF = hvMainLoopF f recF x (j + 1) A.length (r'.length + 1) (s'.headD 0) p1 V (skipOrRecurse recF (j + 1) (r'.length + 1) p1 S3) →
        M = hvMainLoopF g rec x (j + 1) A.length (r'.length + 1) (s'.headD 0) p1 V (skipOrRecurse rec (j + 1) (r'.length + 1) p1 S3) →
      (f (mF.1 + f (mF.2.2.area (j + 1) mF.2.1 * f (ref (j + 1) - x mF.2.1 (j + 1)))), mF.2.2) =
          (g (M.1 + g (M.2.2.area (j + 1) M.2.1 * g (ref (j + 1) - x M.2.1 (j + 1)))), M.2.2) ∧
        OA m ν (j + 1 + 1) (g (M.1 + g (M.2.2.area (j + 1) M.2.1 * g (ref (j + 1) - x M.2.1 (j + 1))))) ∧ links M.2.2 = links S ∧
        OMono m ν N pos S M.2.2 ∧ CacheOv x m ν N pos (j + 1) A M.2.2 ∧ ∀ i, j + 1 < i → M.2.2.bound i = S.bound i := by
    intro V S3 hl3 hb3 m3 hvol3 hV mF M hmF hm
    have hcd3 : CacheOv x m ν N pos j (r' ++ [p1]) S3 := c2.mono m3 (fun i _ _ => by rw [hb3])
    have hpa : OA m ν (j + 1) (S3.area (j + 1) (S3.prev (j + 1) p1)) := by
      have : S3.prev = S2.prev := congrArg Prod.snd hl3
      rw [this, hprev]
      rcases List.mem_cons.1 (lastD_mem 0 r') with hz | hz
      · rw [hz]; exact (hh.mono (hmono2.trans m3)) _ hjd
      · exact m3.1 _ _ (hdefR _ hz).1
    obtain ⟨e4, l4, m4, c4, b4, d4⟩ := ov_skip hrec (hlistsR S3 hl3) hRN (hh.mono (hmono2.trans m3)) hcd3 hpa
    rw [← hlenR] at e4 l4 m4 c4 b4 d4
    have hdef4 : ∀ q ∈ r' ++ [p1], OA m ν (j + 1) ((skipOrRecurse rec (j + 1) (r'.length + 1) p1 S3).area (j + 1) q) ∧
        OV m ν N pos (j + 1) q ((skipOrRecurse rec (j + 1) (r'.length + 1) p1 S3).vol (j + 1) q) := by
      intro q hq
      rcases List.mem_append.1 hq with hq | hq
      · have := hdefR q hq
        exact ⟨m4.1 _ _ (m3.1 _ _ this.1), m4.2 _ _ (m3.2 _ _ this.2)⟩
      · simp at hq
        rw [hq]
        exact ⟨d4, m4.2 _ _ hvol3⟩
    obtain ⟨e5, l5, m5, c5, d5, p5, v5, b5⟩ := ov_mainLoop hd hrec hjd hlN hc s' r' p1 A.length (r'.length + 1) V _ g2
      (by rw [← hlen, g2]; simp; omega) rfl (l4.trans (hl3.trans g3)) (hh.mono (hmono2.trans (m3.trans m4))) c4 hdef4 hV
    rw [e4, e5, ← hm] at hmF
    rw [← hm] at l5 m5 c5 d5 p5 v5 b5
    subst hmF
    obtain ⟨e6, g6⟩ := ov_vtop hd hjd v5 (d5 _ p5).1 (hlN _ p5)
    refine ⟨by rw [e6], g6, l5, hmono2.trans (m3.trans (m4.trans m5)), ?_, ?_⟩
    · intro i h3' hi q hq hlt
      rcases Nat.lt_or_ge i (j + 1) with hij | hij
      · exact c5 i h3' (by omega) q ((hmem q).2 hq) hlt
      · have : i = j + 1 := by omega
        subst this
        exact d5 q ((hmem q).2 hq)
    · intro i hi
      rw [b5 i hi, b4 i (by omega), hb3, b2 i hi]
  unfold hvLevelF
  dsimp only
  rw [hp0, hreset]
  have e1' : S1.prev (j + 1) 0 = lastD 0 l := hp0
  rw [e1', g1]
  dsimp only
  by_cases hcc : r'.length + 1 > 1
  · simp only [if_pos hcc]
    have hq : lastD 0 r' ∈ r' := by
      rcases List.eq_nil_or_concat r' with rfl | ⟨r2, p2, rfl⟩
      · simp at hcc
      · rw [List.concat_eq_append, lastD_append_singleton]; simp
    have hql : lastD 0 r' ∈ l := by rw [g2]; exact List.mem_append_left _ hq
    have hle : pos (j + 1) (lastD 0 r') < pos (j + 1) p1 := by
      have hpw := hsorted
      rw [g2] at hpw
      exact (List.pairwise_append.1 hpw).2.2 _ hq p1 (by simp)
    obtain ⟨e3, g3'⟩ := ov_vadd hd hjd (hdefR _ hq).2 (hdefR _ hq).1 (hlN _ hql) (hlN p1 hp1l) hle
    rw [hprev, e3]
    refine tail _ { S2 with vol := upd2 S2.vol (j + 1) p1 _ } rfl rfl (OMono.of_vol rfl rfl g3') ?_ g3' _ _ rfl rfl
    show OV m ν N pos (j + 1) p1 (upd2 S2.vol (j + 1) p1 _ (j + 1) p1)
    rw [upd2_at, if_pos ⟨rfl, rfl⟩]; exact g3'
  · simp only [if_neg hcc]
    have hz : OV m ν N pos (j + 1) p1 0 :=
      OV.zero _ _ _ _ _ _
    rw [ov_areaInit hd (hlN p1 hp1l) S2 (j + 1) hjd.le]
    obtain ⟨⟨ar, har⟩, hi2⟩ := hvAreaInitF_rest g x ref p1 (j + 1) S2
    have hma : OMono m ν N pos S2 (hvAreaInitF g x ref p1 (j + 1) S2) := by
      refine ⟨fun i p h => ?_, fun i p h => by rw [har]; exact h⟩
      rw [hi2]
      split
      · rename_i h'
        exact (ov_box hd (hlN p1 hp1l) i (by omega)).2
      · exact h
    refine tail 0 { hvAreaInitF g x ref p1 (j + 1) S2 with vol := upd2 (hvAreaInitF g x ref p1 (j + 1) S2).vol (j + 1) p1 0 } ?_ ?_
      (hma.trans (OMono.of_vol rfl rfl hz)) ?_ hz _ _ rfl rfl
    · rw [har]; rfl
    · rw [har]
    · show OV m ν N pos (j + 1) p1 (upd2 (hvAreaInitF g x ref p1 (j + 1) S2).vol (j + 1) p1 0 (j + 1) p1)
      rw [upd2_at, if_pos ⟨rfl, rfl⟩]; exact hz

/-- The recursion. -/
theorem ov_rec (hd : OvData f g x ref N d m ν)
    (hsort : ∀ i < d, ∀ p ∈ N, ∀ q ∈ N, pos i p < pos i q → x p i ≤ x q i) : ∀ k, k + 2 < d →
    OvRec x m ν pos N d (k + 2) (hvRecF f x ref k) (hvRecF g x ref k)
  | 0, h => ov_base hd (by omega)
  | k + 1, h => ov_level hd (ov_rec hd hsort k (by omega)) (by omega) (by omega) hsort

end Moo
