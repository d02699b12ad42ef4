import Verif.Model.HvCost
import Verif.Lemmas.AvlCost
import Mathlib.Tactic.Ring
import Mathlib.Tactic.Linarith

/-!
# Number of steps of the loops of the hypervolume computation
-/

set_option autoImplicit false
set_option linter.unusedSectionVars false

namespace Moo

section
variable {α β : Type}

theorem Runs.liftB {o : Option α} {f : α → Tm β} {a : α} {b : β} {B : ℕ} (h : o = some a) (h2 : Runs (f a) b B) : Runs (Tm.lift o >>= f) b B :=
  (Runs.lift h).bind' h2 (by omega)

theorem Runs.tickB {f : Unit → Tm β} {b : β} {B B' : ℕ} (h2 : Runs (f ()) b B) (hB : B + 1 ≤ B') : Runs (Moo.tick >>= f) b B' :=
  Runs.tick.bind' h2 (by omega)

theorem Runs.ticksB {k : ℕ} {f : Unit → Tm β} {b : β} {B B' : ℕ} (h2 : Runs (f ()) b B) (hB : B + k ≤ B') : Runs (Moo.ticks k >>= f) b B' :=
  (Runs.ticks k).bind' h2 (by omega)

/-- Taking a successful run apart. -/
theorem obind {o : Option α} {f : α → Option β} {b : β} (h : (o >>= f) = some b) : ∃ a, o = some a ∧ f a = some b := Option.bind_eq_some_iff.1 h

end

variable {K : Type} [CommRing K] [LinearOrder K]

theorem memLinkFromT_runs (n d j : ℕ) : ∀ (l : List ℕ) (a : ℕ) (M M' : HvMem K), memLinkFrom n d j a l M = some M' →
    Runs (memLinkFromT n d j a l M) M' l.length
  | [], _, _, _, h => Runs.lift h
  | q :: qs, a, M, M', h => by
    obtain ⟨M1, h1, h⟩ := obind h
    obtain ⟨M2, h2, h⟩ := obind h
    exact Runs.tickB (Runs.liftB h1 (Runs.liftB h2 (memLinkFromT_runs n d j qs q M2 M' h))) (by simp)

theorem memLinkAllT_runs (n d : ℕ) (ords : ℕ → List ℕ) : ∀ (m : ℕ) (M M' : HvMem K), (∀ i < m, (ords i).length = n) →
    memLinkAll n d ords m M = some M' → Runs (memLinkAllT n d ords m M) M' (m * (2 * n + 1))
  | 0, M, M', _, h => by
    obtain rfl := Option.some.inj h
    exact (Runs.ret _).mono (by omega)
  | m + 1, M, M', hl, h => by
    obtain ⟨M1, h1, h⟩ := obind h
    have := memLinkFromT_runs n d m _ _ _ _ h1
    rw [hl m (by omega)] at this
    exact Runs.tickB (B := n + (n + m * (2 * n + 1))) (Runs.ticksB (B := n + m * (2 * n + 1))
      (this.bind (memLinkAllT_runs n d ords m M1 M' (fun i hi => hl i (by omega)) h)) (by omega)) (by rw [show (m + 1) * (2 * n + 1) = m * (2 * n + 1) + (2 * n + 1) by ring]; omega)

theorem memSetupT_runs (n d : ℕ) (ords : ℕ → List ℕ) (b0 : K) (M : HvMem K) (hl : ∀ i < d, (ords i).length = n) (h : memSetup n d ords b0 = some M) :
    Runs (memSetupT n d ords b0) M (3 * n + 2 * d + d * (2 * n + 1)) := by
  have := memLinkAllT_runs n d ords d _ _ hl h
  refine Runs.ticksB (B := 2 * n + 2 * d + d * (2 * n + 1)) (Runs.ticksB (B := n + 2 * d + d * (2 * n + 1)) (this.bind' (B2 := n + 2 * d) ?_ (by omega)) (by omega)) (by omega)
  exact Runs.ticksB (B := 2 * d) (Runs.ticksB (B := d) (Runs.ticksB (B := 0) (Runs.ret _) (by omega)) (by omega)) (by omega)

theorem memDeleteLoopT_runs (x : ℕ → ℕ → K) (n d p : ℕ) : ∀ (m : ℕ) (M M' : HvMem K), memDeleteLoop x n d p m M = some M' →
    Runs (memDeleteLoopT x n d p m M) M' m
  | 0, M, M', h => by
    obtain rfl := Option.some.inj h
    exact Runs.ret _
  | m + 1, M, M', h => by
    obtain ⟨M1, h1, h⟩ := obind h
    exact (memDeleteLoopT_runs x n d p m M M1 h1).bind (Runs.tickB (B := 0) (Runs.lift h) (by omega))

theorem memReinsertLoopT_runs (x : ℕ → ℕ → K) (n d p : ℕ) : ∀ (m : ℕ) (M M' : HvMem K), memReinsertLoop x n d p m M = some M' →
    Runs (memReinsertLoopT x n d p m M) M' m
  | 0, M, M', h => by
    obtain rfl := Option.some.inj h
    exact Runs.ret _
  | m + 1, M, M', h => by
    obtain ⟨M1, h1, h⟩ := obind h
    exact (memReinsertLoopT_runs x n d p m M M1 h1).bind (Runs.tickB (B := 0) (Runs.lift h) (by omega))

theorem memResetT_runs (n dim : ℕ) : ∀ (fuel pp : ℕ) (M M' : HvMem K), memReset n dim fuel pp M = some M' → Runs (memResetT n dim fuel pp M) M' fuel
  | 0, pp, M, M', h => by
    rw [memReset] at h
    rw [memResetT]
    split_ifs at h ⊢
    obtain rfl := Option.some.inj h
    exact Runs.ret _
  | fuel + 1, pp, M, M', h => by
    rw [memReset] at h
    rw [memResetT]
    by_cases hp : pp = 0
    · rw [if_pos hp] at h ⊢
      obtain rfl := Option.some.inj h
      exact (Runs.ret _).mono (by omega)
    · rw [if_neg hp] at h ⊢
      obtain ⟨ig, h1, h⟩ := obind h
      obtain ⟨M1, h2, h⟩ : ∃ M1, (if ig < dim then M.setIgnore n pp 0 else some M) = some M1 ∧ (M1.prev dim pp >>= fun q => memReset n dim fuel q M1) = some M' := by
        by_cases hig : ig < dim
        · simp only [if_pos hig] at h ⊢
          exact obind h
        · simp only [if_neg hig] at h ⊢
          exact obind h
      obtain ⟨q, h3, h⟩ := obind h
      exact Runs.tickB (B := fuel) (Runs.liftB h1 (Runs.liftB h2 (Runs.liftB h3 (memResetT_runs n dim fuel q M1 M' h)))) (by omega)

theorem memDelLoopT_runs (x : ℕ → ℕ → K) (n d dim : ℕ) : ∀ (c p0 p1 : ℕ) (M : HvMem K) (r : ℕ × ℕ × ℕ × HvMem K),
    memDelLoop x n d dim c p0 p1 M = some r → Runs (memDelLoopT x n d dim c p0 p1 M) r (c * (dim - 2 + 1)) ∧ 1 ≤ r.1
  | 0, _, _, _, _, h => by simp [memDelLoop] at h
  | c + 1, p0, p1, M, r, h => by
    rw [memDelLoop] at h
    rw [memDelLoopT]
    obtain ⟨b, h1, h⟩ := obind h
    cases b with
    | true =>
      rw [if_pos rfl] at h
      obtain ⟨M1, h2, h⟩ := obind h
      obtain ⟨q, h3, h⟩ := obind h
      obtain ⟨i1, i2⟩ := memDelLoopT_runs x n d dim c p1 q M1 r h
      refine ⟨Runs.liftB h1 ?_, i2⟩
      rw [if_pos rfl]
      exact Runs.tickB (B := dim - 2 + c * (dim - 2 + 1)) ((memDeleteLoopT_runs x n d p1 _ _ _ h2).bind (Runs.liftB h3 i1)) (by rw [Nat.succ_mul]; omega)
    | false =>
      rw [if_neg (by decide)] at h
      obtain rfl := Option.some.inj h
      refine ⟨Runs.liftB h1 ?_, by dsimp only; omega⟩
      rw [if_neg (by decide)]
      exact (Runs.ret _).mono (by omega)

theorem memAreaInitT_runs (x : ℕ → ℕ → K) (ref : ℕ → K) (n d p1 : ℕ) : ∀ (m : ℕ) (M M' : HvMem K), memAreaInit x ref n d p1 m M = some M' →
    Runs (memAreaInitT x ref n d p1 m M) M' m
  | 0, M, M', h => Runs.lift h
  | m + 1, M, M', h => by
    obtain ⟨M1, h1, h⟩ := obind h
    obtain ⟨a, h2, h⟩ := obind h
    obtain ⟨r, h3, h⟩ := obind h
    obtain ⟨v, h4, h⟩ := obind h
    exact (memAreaInitT_runs x ref n d p1 m M M1 h1).bind (Runs.tickB (B := 0) (Runs.liftB h2 (Runs.liftB h3 (Runs.liftB h4 (Runs.lift h)))) (by omega))

theorem memStartT_runs (x : ℕ → ℕ → K) (ref : ℕ → K) (n d dim c p1 : ℕ) (M : HvMem K) (r : K × HvMem K) (h : memStart x ref n d dim c p1 M = some r) :
    Runs (memStartT x ref n d dim c p1 M) r dim := by
  unfold memStartT
  by_cases hc : c > 1
  · rw [if_pos hc]
    exact (Runs.lift h).mono (by omega)
  · rw [if_neg hc]
    unfold memStart at h
    rw [if_neg hc] at h
    obtain ⟨M1, h1, h⟩ := obind h
    obtain ⟨M2, h2, h⟩ := obind h
    obtain rfl := Option.some.inj h
    exact (memAreaInitT_runs x ref n d p1 dim M M1 h1).bind' (B2 := 0) (Runs.liftB h2 (Runs.ret _)) (by omega)

theorem memFilterDeleteNodeT_runs (n d p : ℕ) : ∀ (m : ℕ) (M M' : HvMem K), memFilterDeleteNode n d p m M = some M' →
    Runs (memFilterDeleteNodeT n d p m M) M' m
  | 0, M, M', h => by
    obtain rfl := Option.some.inj h
    exact Runs.ret _
  | m + 1, M, M', h => by
    obtain ⟨M1, h1, h⟩ := obind h
    exact (memFilterDeleteNodeT_runs n d p m M M1 h1).bind (Runs.tickB (B := 0) (Runs.lift h) (by omega))

/-- The number of deletions is paid by the points that are deleted. -/
theorem memFilterDimT_runs (x : ℕ → ℕ → K) (ref : ℕ → K) (n d i : ℕ) : ∀ (np aux c : ℕ) (M : HvMem K) (r : ℕ × HvMem K), np ≤ c →
    memFilterDim x ref n d i np aux c M = some r → ∃ B, Runs (memFilterDimT x ref n d i np aux c M) r B ∧ B + r.1 * (d + 1) ≤ c * (d + 1) + 1 ∧ r.1 ≤ c
  | 0, _, c, M, r, _, h => by
    obtain rfl := Option.some.inj h
    exact ⟨0, Runs.ret _, by dsimp only; omega, le_refl _⟩
  | np + 1, aux, c, M, r, hnp, h => by
    rw [memFilterDim] at h
    rw [memFilterDimT]
    obtain ⟨v, h1, h⟩ := obind h
    obtain ⟨rf, h2, h⟩ := obind h
    by_cases hv : v < rf
    · rw [if_pos hv] at h
      obtain rfl := Option.some.inj h
      refine ⟨1, Runs.tickB (B := 0) (Runs.liftB h1 (Runs.liftB h2 ?_)) (by omega), by dsimp only; omega, le_refl _⟩
      rw [if_pos hv]
      exact Runs.ret _
    · rw [if_neg hv] at h
      obtain ⟨M1, h3, h⟩ := obind h
      obtain ⟨q, h4, h⟩ := obind h
      obtain ⟨B, hB, h5, h6⟩ := memFilterDimT_runs x ref n d i np q (c - 1) M1 r (by omega) h
      refine ⟨d + B + 1, Runs.tickB (B := d + B) (Runs.liftB h1 (Runs.liftB h2 ?_)) (by omega), ?_, by omega⟩
      · rw [if_neg hv]
        exact (memFilterDeleteNodeT_runs n d aux d M M1 h3).bind (Runs.liftB h4 hB)
      · obtain ⟨c', rfl⟩ : ∃ c', c = c' + 1 := ⟨c - 1, by omega⟩
        rw [Nat.add_sub_cancel] at h5
        rw [Nat.succ_mul c']; omega

theorem memFilterRefT_runs (x : ℕ → ℕ → K) (ref : ℕ → K) (n d : ℕ) : ∀ (m c : ℕ) (M : HvMem K) (r : ℕ × HvMem K),
    memFilterRef x ref n d m c M = some r → ∃ B, Runs (memFilterRefT x ref n d m c M) r B ∧ B + r.1 * (d + 1) ≤ c * (d + 1) + 2 * m ∧ r.1 ≤ c
  | 0, c, M, r, h => by
    obtain rfl := Option.some.inj h
    exact ⟨0, Runs.ret _, by dsimp only; omega, le_refl _⟩
  | m + 1, c, M, r, h => by
    rw [memFilterRef] at h
    rw [memFilterRefT]
    obtain ⟨r1, h1, h⟩ := obind h
    obtain ⟨q, h2, h⟩ := obind h
    obtain ⟨B1, i1, i2, i3⟩ := memFilterRefT_runs x ref n d m c M r1 h1
    obtain ⟨B2, j1, j2, j3⟩ := memFilterDimT_runs x ref n d m r1.1 q r1.1 r1.2 r (le_refl _) h
    exact ⟨B1 + (B2 + 1), i1.bind (Runs.tickB (B := B2) (Runs.liftB h2 j1) (by omega)), by omega, by omega⟩

end Moo
