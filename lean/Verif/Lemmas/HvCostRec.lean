import Verif.Lemmas.HvCost3d
import Verif.Lemmas.HvMemRec
import Verif.Props.HvMem

/-!
# Number of steps of the recursion of the hypervolume computation
-/

set_option autoImplicit false
set_option linter.unusedSectionVars false

namespace Moo

section
variable {K : Type} [CommRing K] [LinearOrder K] {x : ℕ → ℕ → K} {ref : ℕ → K} {n d : ℕ}

/-- `recM` is only called with at most `n` nodes, and the run `recT` with the count of the steps makes at most `B` steps. -/
def RecCost (n : ℕ) (recM : ℕ → HvMem K → Option (K × HvMem K)) (recT : ℕ → HvMem K → AvlHeap → Tm (K × HvMem K × AvlHeap)) (B : ℕ) : Prop :=
  ∀ (c : ℕ) (M : HvMem K) (h : AvlHeap) (r : K × HvMem K), recM c M = some r → AvlInv h [] →
    c ≤ n ∧ ∃ h', Runs (recT c M h) (r.1, r.2, h') B ∧ AvlInv h' []

theorem memSkipT_runs {recM : ℕ → HvMem K → Option (K × HvMem K)} {recT : ℕ → HvMem K → AvlHeap → Tm (K × HvMem K × AvlHeap)} {B : ℕ} (hrec : RecCost n recM recT B)
    {dim c p : ℕ} {M M' : HvMem K} {h : AvlHeap} (hi : AvlInv h []) (hh : memSkip recM n d dim c p M = some M') :
    ∃ h' b, Runs (memSkipT recT n d dim c p M h) (M', h') b ∧ AvlInv h' [] ∧ (b = 0 ∨ b = B ∧ c ≤ n) := by
  unfold memSkip at hh
  unfold memSkipT
  obtain ⟨ig, h1, hh⟩ := obind hh
  by_cases hig : ig ≥ dim
  · rw [if_pos hig] at hh
    obtain ⟨q, h2, hh⟩ := obind hh
    obtain ⟨a, h3, hh⟩ := obind hh
    refine ⟨h, 0, Runs.liftB h1 ?_, hi, Or.inl rfl⟩
    rw [if_pos hig]
    exact Runs.liftB h2 (Runs.liftB h3 (Runs.liftB hh (Runs.ret _)))
  · rw [if_neg hig] at hh
    obtain ⟨r, h2, hh⟩ := obind hh
    obtain ⟨M1, h3, hh⟩ := obind hh
    obtain ⟨a, h4, hh⟩ := obind hh
    obtain ⟨q, h5, hh⟩ := obind hh
    obtain ⟨b, h6, hh⟩ := obind hh
    obtain ⟨hc, h', i1, i2⟩ := hrec c M h r h2 hi
    refine ⟨h', B, Runs.liftB h1 ?_, i2, Or.inr ⟨rfl, hc⟩⟩
    rw [if_neg hig]
    refine i1.bind' (B2 := 0) (Runs.liftB h3 (Runs.liftB h4 (Runs.liftB h5 (Runs.liftB h6 ?_)))) (by omega)
    by_cases hab : a ≤ b
    · rw [if_pos hab] at hh ⊢
      exact Runs.liftB hh (Runs.ret _)
    · rw [if_neg hab] at hh ⊢
      obtain rfl := Option.some.inj hh
      exact Runs.ret _

theorem memMainLoopT_runs {recM : ℕ → HvMem K → Option (K × HvMem K)} {recT : ℕ → HvMem K → AvlHeap → Tm (K × HvMem K × AvlHeap)} {B : ℕ} (hrec : RecCost n recM recT B)
    {dim : ℕ} : ∀ (fuel c p0 p1 : ℕ) (v : K) (M : HvMem K) (h : AvlHeap) (r : K × ℕ × HvMem K), AvlInv h [] →
    memMainLoop recM x n d dim fuel c p0 p1 v M = some r →
    ∃ h', Runs (memMainLoopT recT x n d dim fuel c p0 p1 v M h) (r.1, r.2.1, r.2.2, h') (fuel * (dim - 2 + 1) + (n - c) * B) ∧ AvlInv h' []
  | 0, c, p0, p1, v, M, h, r, hi, hh => by
    rw [memMainLoop] at hh
    rw [memMainLoopT]
    by_cases hp : p0 = 0
    · rw [if_pos hp] at hh ⊢
      obtain rfl := Option.some.inj hh
      exact ⟨h, (Runs.ret _).mono (by omega), hi⟩
    · rw [if_neg hp] at hh
      exact absurd hh (by simp)
  | fuel + 1, c, p0, p1, v, M, h, r, hi, hh => by
    rw [memMainLoop] at hh
    rw [memMainLoopT]
    by_cases hp : p0 = 0
    · rw [if_pos hp] at hh ⊢
      obtain rfl := Option.some.inj hh
      exact ⟨h, (Runs.ret _).mono (by omega), hi⟩
    · rw [if_neg hp] at hh ⊢
      obtain ⟨a, h1, hh⟩ := obind hh
      obtain ⟨v0, h2, hh⟩ := obind hh
      obtain ⟨v1, h3, hh⟩ := obind hh
      obtain ⟨M1, h4, hh⟩ := obind hh
      obtain ⟨M2, h5, hh⟩ := obind hh
      obtain ⟨q, h6, hh⟩ := obind hh
      obtain ⟨M3, h7, hh⟩ := obind hh
      obtain ⟨M4, h8, hh⟩ := obind hh
      obtain ⟨h', b, s1, s2, s3⟩ := memSkipT_runs hrec hi h8
      obtain ⟨h'', i1, i2⟩ := memMainLoopT_runs hrec fuel (c + 1) q p0 _ M4 h' r s2 hh
      refine ⟨h'', Runs.tickB (B := dim - 2 + (b + (fuel * (dim - 2 + 1) + (n - (c + 1)) * B))) (Runs.liftB h1 (Runs.liftB h2 (Runs.liftB h3 (Runs.liftB h4
        ((memReinsertLoopT_runs x n d p0 _ _ _ h5).bind (Runs.liftB h6 (Runs.liftB h7 (s1.bind i1)))))))) ?_, i2⟩
      have e : (fuel + 1) * (dim - 2 + 1) = fuel * (dim - 2 + 1) + (dim - 2 + 1) := by ring
      have e2 : b + (n - (c + 1)) * B ≤ (n - c) * B := by
        rcases s3 with rfl | ⟨rfl, hc⟩
        · rw [Nat.zero_add]; exact Nat.mul_le_mul_right _ (by omega)
        · have : n - c = n - (c + 1) + 1 := by omega
          rw [this, Nat.add_mul, Nat.one_mul]; omega
      rw [e]
      omega

theorem memLevelT_runs {recM : ℕ → HvMem K → Option (K × HvMem K)} {recT : ℕ → HvMem K → AvlHeap → Tm (K × HvMem K × AvlHeap)} {B : ℕ} (hrec : RecCost n recM recT B)
    {dim c : ℕ} {M : HvMem K} {h : AvlHeap} {r : K × HvMem K} (hi : AvlInv h []) (hc : c ≤ n) (hn : 1 ≤ n) (hdim : 2 ≤ dim) (hh : memLevel recM x ref n d dim c M = some r) :
    ∃ h', Runs (memLevelT recT x ref n d dim c M h) (r.1, r.2, h') (n * B + n * (3 * dim)) ∧ AvlInv h' [] := by
  obtain ⟨p, h1, hh⟩ := obind hh
  obtain ⟨M1, h2, hh⟩ := obind hh
  obtain ⟨r1, h3, hh⟩ := obind hh
  obtain ⟨hs, h4, hh⟩ := obind hh
  obtain ⟨M2, h5, hh⟩ := obind hh
  obtain ⟨m, h6, hh⟩ := obind hh
  obtain ⟨a, h7, hh⟩ := obind hh
  obtain ⟨rf, h8, hh⟩ := obind hh
  obtain ⟨v, h9, hh⟩ := obind hh
  obtain rfl := Option.some.inj hh
  obtain ⟨d1, d2⟩ := memDelLoopT_runs x n d dim _ _ _ _ _ h3
  obtain ⟨h', b, s1, s2, s3⟩ := memSkipT_runs hrec hi h5
  obtain ⟨h'', i1, i2⟩ := memMainLoopT_runs hrec _ _ _ _ _ _ _ _ s2 h6
  refine ⟨h'', Runs.tickB (B := c + (c * (dim - 2 + 1) + (dim + (b + (c * (dim - 2 + 1) + (n - r1.1) * B + 0))))) (Runs.liftB h1 ((memResetT_runs n dim _ _ _ _ h2).bind (d1.bind
    ((memStartT_runs x ref n d dim _ _ _ _ h4).bind (s1.bind (i1.bind (Runs.liftB h7 (Runs.liftB h8 (Runs.liftB h9 (Runs.ret _)))))))))) ?_, i2⟩
  have e1 : b + (n - r1.1) * B ≤ n * B := by
    rcases s3 with rfl | ⟨rfl, hc⟩
    · rw [Nat.zero_add]; exact Nat.mul_le_mul_right _ (by omega)
    · have : n = n - r1.1 + 1 + (r1.1 - 1) := by omega
      calc b + (n - r1.1) * b = (n - r1.1 + 1) * b := by ring
        _ ≤ n * b := Nat.mul_le_mul_right _ (by omega)
  have e2 : c * (dim - 2 + 1) ≤ n * (dim - 2 + 1) := Nat.mul_le_mul_right _ hc
  obtain ⟨k, rfl⟩ : ∃ k, dim = k + 2 := ⟨dim - 2, by omega⟩
  rw [Nat.add_sub_cancel] at *
  have e3 : n * (3 * (k + 2)) = 2 * (n * (k + 1)) + n + n * (k + 3) := by ring
  have e4 : 1 * (k + 3) ≤ n * (k + 3) := Nat.mul_le_mul_right _ hn
  rw [e3]
  omega

/-- `memRec`, which fails when it is called with more than `n` nodes. -/
def memRecC (x : ℕ → ℕ → K) (ref : ℕ → K) (n d : ℕ) : ℕ → ℕ → HvMem K → Option (K × HvMem K)
  | 0, c, M => if c ≤ n then memHv3dRef x ref n d c M else none
  | k + 1, c, M => if c ≤ n then memLevel (memRecC x ref n d k) x ref n d (k + 3) c M else none

theorem memRecT_cost (tf L : ℕ) (hn1 : 1 ≤ n) (hn : n < 2 ^ 125) (htf : n < tf) (hL : n ≤ 2 ^ L) : ∀ k, k + 2 < d →
    RecCost n (memRecC x ref n d k) (memRecT tf x ref n d k) (n ^ (k + 1) * (8 * L + 11) + 3 * d * k * n ^ k)
  | 0, _ => by
    intro c M h r hh hi
    rw [memRecC] at hh
    split_ifs at hh with hc
    refine ⟨hc, ?_⟩
    obtain ⟨h', i1, i2⟩ := memHv3dRefT_runs tf L hn htf hL c hc hn1 M h r hi hh
    exact ⟨h', i1.mono (by simp), i2⟩
  | k + 1, hk => by
    intro c M h r hh hi
    rw [memRecC] at hh
    split_ifs at hh with hc
    refine ⟨hc, ?_⟩
    obtain ⟨h', i1, i2⟩ := memLevelT_runs (memRecT_cost tf L hn1 hn htf hL k (by omega)) hi hc hn1 (by omega) hh
    refine ⟨h', i1.mono ?_, i2⟩
    have hp : 1 ≤ n ^ k := Nat.one_le_pow _ _ hn1
    have e1 : n * (3 * (k + 3)) ≤ 3 * d * n ^ (k + 1) := by
      rw [pow_succ, show n * (3 * (k + 3)) = 3 * (k + 3) * (1 * n) by ring]
      exact Nat.mul_le_mul (by omega) (Nat.mul_le_mul_right _ hp)
    calc n * (n ^ (k + 1) * (8 * L + 11) + 3 * d * k * n ^ k) + n * (3 * (k + 3))
        ≤ n * (n ^ (k + 1) * (8 * L + 11) + 3 * d * k * n ^ k) + 3 * d * n ^ (k + 1) := by omega
      _ = n ^ (k + 1 + 1) * (8 * L + 11) + 3 * d * (k + 1) * n ^ (k + 1) := by ring

end

variable {x : ℕ → ℕ → ℝ} {ref : ℕ → ℝ} {pos : ℕ → ℕ → ℕ} {n d : ℕ}

theorem SafeRec.guard {j : ℕ} {recM : ℕ → HvMem ℝ → Option (ℝ × HvMem ℝ)} {rec : ℕ → HvState ℝ → ℝ × HvState ℝ} (h : SafeRec x pos n d j recM rec) :
    SafeRec x pos n d j (fun c M => if c ≤ n then recM c M else none) rec := by
  intro A S M hA hAn hag hcd
  obtain ⟨M', e, rest⟩ := h A S M hA hAn hag hcd
  refine ⟨M', ?_, rest⟩
  dsimp only
  rw [if_pos hA.len]
  exact e

theorem memRecC_safe (hd : 3 ≤ d) (hsort : ∀ i < d, ∀ p q, 1 ≤ p → p ≤ n → 1 ≤ q → q ≤ n → pos i p < pos i q → x p i ≤ x q i) :
    ∀ k, k + 2 < d → SafeRec x pos n d (k + 2) (memRecC x ref n d k) (hvRec x ref k)
  | 0, _ => (memHv3dRef_safe hd).guard
  | k + 1, hk => (memLevel_safe (memRecC_safe hd hsort k (by omega)) (by omega) (by omega) hsort).guard

/-- c/hv.c:1140-1167: the steps of the whole computation, and its result. -/
theorem fpliHvT_runs (hd : 3 ≤ d) (hn1 : 1 ≤ n) (hn : n < 2 ^ 125) (tf L : ℕ) (htf : n < tf) (hL : n ≤ 2 ^ L) (ords : ℕ → List ℕ) (b0 : ℝ) (mem : HvState ℝ)
    (hord : HvOrders x d n ords) (hb : ∀ p, 1 ≤ p → p ≤ n → ∀ k < d, b0 ≤ x p k) (h : AvlHeap) :
    Runs (fpliHvT tf x d n ref ords b0 h) (fpliHvN x d n ref ords b0 mem) (n ^ (d - 2) * (8 * L + 3 * d ^ 2 + 14)) := by
  set N := List.range' 1 n with hNdef
  have hNnd : N.Nodup := by rw [hNdef]; exact List.nodup_range'
  have hN0 : 0 ∉ N := by rw [hNdef, List.mem_range'_1]; omega
  have hNb : ∀ p ∈ N, 1 ≤ p ∧ p ≤ n := by
    intro p hp
    rw [hNdef, List.mem_range'_1] at hp; omega
  set pos : ℕ → ℕ → ℕ := fun i p => (ords i).idxOf p with hpos
  have hperm : ∀ i < d, (ords i).Perm N := fun i hi => hvOrders_perm hord i hi
  have hnd : ∀ i < d, (ords i).Nodup := fun i hi => (hperm i hi).nodup_iff.2 hNnd
  have hmem : ∀ i < d, ∀ p, p ∈ ords i ↔ p ∈ N := fun i hi p => (hperm i hi).mem_iff
  have hsort : ∀ i < d, ∀ p ∈ N, ∀ q ∈ N, pos i p < pos i q → x p i ≤ x q i := by
    intro i hi p hp q hq hlt
    exact pairwise_of_idxOf (hvOrders_sorted hord i hi) ((hmem i hi p).2 hp) ((hmem i hi q).2 hq) hlt
  have hsort' : ∀ i < d, ∀ p q, 1 ≤ p → p ≤ n → 1 ≤ q → q ≤ n → pos i p < pos i q → x p i ≤ x q i := by
    intro i hi p q h1 h2 h3 h4
    exact hsort i hi p (by rw [hNdef, List.mem_range'_1]; omega) q (by rw [hNdef, List.mem_range'_1]; omega)
  obtain ⟨s1, -, -, -, s5⟩ := linkAll_spec ords d
    { mem with
      ignore := fun _ => 0
      area := fun i p => if p = 0 ∧ i < d then 0 else mem.area i p
      bound := fun _ => b0 } (fun i hi => ⟨hnd i hi, fun h => hN0 ((hmem i hi 0).1 h)⟩)
  have hls0 : ∀ k < d, LinkedSet ((setupCdllist ords d b0 mem).next k) ((setupCdllist ords d b0 mem).prev k) (pos k) N :=
    fun k hk => ⟨ords k, hmem k hk, pairwise_idxOf (hnd k hk), s1 k hk⟩
  obtain ⟨M0, e0, h0⟩ := memSetup_agree (n := n) ords hperm b0 mem
  obtain ⟨M1, e1, h1, -, -⟩ := memFilterRef_agree (ref := ref) hsort hNb hNnd hls0 h0 d (le_refl _)
  obtain ⟨A, S1, f1, f2, f3, f4, -, -, f7⟩ := filterRef_spec (ref := ref) hsort hN0 hNnd _ hls0 d (le_refl _)
  have hNlen : N.length = n := by rw [hNdef, List.length_range']
  rw [hNlen] at f1 e1 h1
  rw [f1] at e1 h1
  dsimp only at e1 h1
  have hsetup := memSetupT_runs n d ords b0 M0 (fun i hi => by rw [(hperm i hi).length_eq, hNlen]) e0
  obtain ⟨Bf, t1, t2, -⟩ := memFilterRefT_runs x ref n d d n M0 _ e1
  have hpow : 1 ≤ n ^ (d - 3) := Nat.one_le_pow _ _ hn1
  have hpw : n ^ (d - 2) = n ^ (d - 3) * n := by rw [← pow_succ]; congr 1; omega
  have hpn : n ≤ n ^ (d - 2) := by rw [hpw]; exact Nat.le_mul_of_pos_left n hpow
  -- the part of the bound for everything but the recursion
  have g2 : 3 * n + 2 * d + d * (2 * n + 1) + Bf ≤ n ^ (d - 2) * (4 + 8 * d) := by
    have g1 : Bf ≤ n * (d + 1) + 2 * d := by omega
    have g2 : 1 * d ≤ n * d := Nat.mul_le_mul_right _ hn1
    calc 3 * n + 2 * d + d * (2 * n + 1) + Bf ≤ 3 * n + 2 * d + d * (2 * n + 1) + (n * (d + 1) + 2 * d) := by omega
      _ = 4 * n + 3 * (n * d) + 5 * (1 * d) := by ring
      _ ≤ 4 * n + 3 * (n * d) + 5 * (n * d) := by omega
      _ = n * (4 + 8 * d) := by ring
      _ ≤ n ^ (d - 2) * (4 + 8 * d) := Nat.mul_le_mul_right _ hpn
  have hover : 3 * n + 2 * d + d * (2 * n + 1) + (Bf + 2 * d) ≤ n ^ (d - 2) * (4 + 10 * d) := by
    have : 1 * (2 * d) ≤ n ^ (d - 2) * (2 * d) := Nat.mul_le_mul_right _ (hn1.trans hpn)
    rw [show n ^ (d - 2) * (4 + 10 * d) = n ^ (d - 2) * (4 + 8 * d) + n ^ (d - 2) * (2 * d) by ring]
    omega
  have hbase : n ^ (d - 2) * (4 + 10 * d) ≤ n ^ (d - 2) * (8 * L + 3 * d ^ 2 + 14) := by
    refine Nat.mul_le_mul_left _ ?_
    nlinarith
  unfold fpliHvT fpliHvN
  rw [f1]
  dsimp only
  refine Runs.mono (B := 3 * n + 2 * d + d * (2 * n + 1) + (Bf + (n ^ (d - 2) * (8 * L + 3 * d ^ 2 + 14) - (3 * n + 2 * d + d * (2 * n + 1)) - Bf))) (hsetup.bind (t1.bind ?_)) (by omega)
  dsimp only
  by_cases hA0 : A.length = 0
  · rw [if_pos hA0, if_pos hA0]
    exact (Runs.ret _).mono (by omega)
  rw [if_neg hA0, if_neg hA0]
  have hAb : ∀ p ∈ A, 1 ≤ p ∧ p ≤ n := fun p hp => hNb p ((f3 p).1 hp).1
  by_cases hA1 : A.length = 1
  · rw [if_pos hA1, if_pos hA1]
    obtain ⟨p, rfl⟩ := List.length_eq_one_iff.1 hA1
    obtain ⟨l, g1, g2, g3⟩ := f4 0 (by omega)
    have hl : l = [p] := by
      have hlen := length_eq_of_mem_iff (pairwise_pos_nodup g2) (List.nodup_singleton p) g1
      obtain ⟨q, rfl⟩ := List.length_eq_one_iff.1 hlen
      have := (g1 q).1 (by simp)
      simp at this; rw [this]
    subst hl
    have hp : S1.next 0 0 = p := g3.1
    have hb := hAb p (by simp)
    refine Runs.liftB (h1.next 0 (by omega) 0 (by omega)) (Runs.ticksB (B := 0) ?_ (by omega))
    rw [hp]
    exact Runs.lift (memBox_some hb.1 hb.2 d (le_refl _))
  · rw [if_neg hA1, if_neg hA1]
    have hlen : A.length ≤ n := by
      have := (List.subperm_of_subset f2 (fun p hp => ((f3 p).1 hp).1)).length_le
      omega
    have hlists : HvLists pos n (d - 3 + 2) A S1 :=
      { nodup := f2, ne := fun hh => hA0 (by rw [hh]; rfl), zero := fun hz => hN0 ((f3 0).1 hz).1
        len := hlen
        lists := fun i _ hi => f4 i (by omega) }
    obtain ⟨M2, e2, -⟩ := memRecC_safe (ref := ref) hd hsort' (d - 3) (by omega) A S1 M1 hlists (fun p hp => (hAb p hp).2) h1 (by
      intro i h3 hi q hq hlt
      exfalso
      have hbi : S1.bound i = b0 := by rw [f7]; exact congrFun s5 i
      rw [hbi] at hlt
      have := hAb q hq
      exact absurd hlt (not_lt.2 (hb q this.1 this.2 i (by omega))))
    obtain ⟨-, h', i1, -⟩ := memRecT_cost tf L hn1 hn htf hL (d - 3) (by omega) _ _ (avlClearTree h) _ e2
      ⟨.nil, rfl, trivial, rfl, ⟨rfl, rfl, trivial⟩, List.nodup_nil⟩
    refine i1.bind' (B2 := 0) (Runs.ret _) ?_
    rw [show d - 3 + 1 = d - 2 by omega]
    -- arithmetic
    have hd3 : d * (d - 3) + 3 * d = d ^ 2 := by
      obtain ⟨k, rfl⟩ : ∃ k, d = k + 3 := ⟨d - 3, by omega⟩
      rw [Nat.add_sub_cancel]; ring
    have g1 : 3 * d * (d - 3) * n ^ (d - 3) ≤ n ^ (d - 2) * (3 * (d * (d - 3))) := by
      rw [show 3 * d * (d - 3) * n ^ (d - 3) = n ^ (d - 3) * (3 * (d * (d - 3))) by ring]
      refine Nat.mul_le_mul_right _ ?_
      rw [hpw]
      exact Nat.le_mul_of_pos_right _ hn1
    have g3 : n ^ (d - 2) * (8 * L + 11) + n ^ (d - 2) * (3 * (d * (d - 3))) + n ^ (d - 2) * (4 + 8 * d) ≤ n ^ (d - 2) * (8 * L + 3 * d ^ 2 + 14) := by
      rw [← Nat.mul_add, ← Nat.mul_add]
      refine Nat.mul_le_mul_left _ ?_
      omega
    omega

end Moo
