import Verif.Model.DsMain
import Verif.Lemmas.Cli
import Verif.Lemmas.NdMain
import Verif.Props.DominatedSets
import Verif.Props.Options

/-!
# Lemmas for the program `dominatedsets`
-/

set_option autoImplicit false
set_option linter.unusedSectionVars false

namespace Moo

section
variable {α : Type*} [LinearOrder α]

theorem weakDomDir_congr {n : ℕ} {dir dir' : ℕ → ℤ} {p p' q q' : ℕ → α} (hd : ∀ k < n, dir k = dir' k) (hp : ∀ k < n, p k = p' k) (hq : ∀ k < n, q k = q' k) :
    WeakDomDir n dir p q ↔ WeakDomDir n dir' p' q' := by
  unfold WeakDomDir
  refine forall_congr' fun d => forall_congr' fun h => ?_
  rw [hd d h, hp d h, hq d h]

/-- `find_dominated_point` looks at the directions of the objectives only. -/
theorem findDominatedPoint_congr [Neg α] (sortFn : (ℕ → ℕ → α) → ℕ → List ℕ) (garbage : ℕ → Bool) (pts : ℕ → ℕ → α) (n size : ℕ) {minmax minmax' : ℕ → ℤ} (hm : ∀ k < n, minmax k = minmax' k) :
    findDominatedPoint sortFn garbage pts n size minmax = findDominatedPoint sortFn garbage pts n size minmax' := by
  unfold findDominatedPoint
  congr 1
  unfold findNondominatedSet_
  by_cases hn : n = 2
  · subst hn
    have hf : forceAgreeMinimize pts 2 minmax AGREE_NONE = forceAgreeMinimize pts 2 minmax' AGREE_NONE := by
      unfold forceAgreeMinimize
      have hr : List.range 2 = [0, 1] := rfl
      simp only [hr, List.all_cons, List.all_nil, List.any_cons, List.any_nil, hm 0 (by omega), hm 1 (by omega)]
      congr 1
      congr 1
      congr 1
      congr 1
      funext k d
      by_cases hd : d < 2
      · simp only [hd, true_and, hm d hd]
      · simp [hd]
    simp only [hf, if_true]
  · simp only [hn, if_false]
    rw [ndOuter_agree pts n size minmax minmax' AGREE_NONE AGREE_NONE true false]
    intro p q
    unfold leqPair
    apply List.foldl_ext
    intro s d hd
    rw [List.mem_range] at hd
    rw [hm d hd]

end

section
variable {K : Type*} [Field K] [LinearOrder K] [IsStrictOrderedRing K]

theorem dsCheckFailed_congr (sortFn : (ℕ → ℕ → K) → ℕ → List ℕ) (garbage : ℕ → Bool) (n : ℕ) {minmax minmax' : ℕ → ℤ} (hm : ∀ k < n, minmax k = minmax' k) (P : ℕ → ℕ → K) (cum : List ℕ) :
    ∀ size, dsCheckFailed sortFn garbage n minmax P cum size = dsCheckFailed sortFn garbage n minmax' P cum size := by
  induction cum with
  | nil => intro size; rfl
  | cons c cs ih =>
    intro size
    rw [dsCheckFailed, dsCheckFailed, ih, findDominatedPoint_congr sortFn garbage _ n _ hm]

/-- The rows from `r.1` on, `r.2` of them, are the points of the set `s`. -/
def RunHolds (n : ℕ) (P : ℕ → ℕ → K) (r : ℕ × ℕ) (s : List (List K)) : Prop := r.2 = s.length ∧ ∀ i (h : i < s.length), ∀ k < n, P (r.1 + i) k = obj s[i] k

/-- The file holds these sets. -/
def FileHolds (n : ℕ) (f : (ℕ → ℕ → K) × List ℕ) (sets : List (List (List K))) : Prop := List.Forall₂ (RunHolds n f.1) (runsOf f.2 0) sets

theorem runsOf_length (cum : List ℕ) : ∀ size, (runsOf cum size).length = cum.length := by
  induction cum with
  | nil => intro; rfl
  | cons c cs ih => intro size; simp [runsOf, ih]

theorem FileHolds.length {n : ℕ} {f : (ℕ → ℕ → K) × List ℕ} {sets : List (List (List K))} (h : FileHolds n f sets) : f.2.length = sets.length := by
  rw [← runsOf_length f.2 0]; exact h.length_eq

theorem fileHolds_of_holdsSets {n : ℕ} {data : ℕ → K} {sets : List (List (List K))} (h : HoldsSets data n 0 sets) : FileHolds n (blockTable data n 0, cumFrom 0 (sets.map List.length)) sets := by
  have key : ∀ (sets : List (List (List K))) (size : ℕ), HoldsSets data n size sets →
      List.Forall₂ (RunHolds n (blockTable data n 0)) (runsOf (cumFrom size (sets.map List.length)) size) sets := by
    intro sets
    induction sets with
    | nil => intro size _; exact .nil
    | cons s sets ih =>
      intro size h
      rw [List.map_cons, cumFrom, runsOf]
      refine .cons ⟨by simp, ?_⟩ (ih _ h.tail)
      intro i hi k hk
      have := h.block i hi k hk
      unfold blockTable rowsTable at this
      unfold blockTable obj
      rw [List.getD_eq_getElem _ _ hi] at this
      rw [← this]
      congr 1
      simp only [Nat.mul_zero, Nat.zero_add, Nat.mul_add]
      omega
  exact key sets 0 h

theorem setWeakDomDir_iff {n : ℕ} {dir dir' : ℕ → ℤ} (hd : ∀ k < n, dir' k = dir k) {A B : ℕ → ℕ → K} {r q : ℕ × ℕ} {s t : List (List K)} (hr : RunHolds n A r s) (hq : RunHolds n B q t) :
    SetWeakDomDir n dir' (fun i => A (r.1 + i)) r.2 (fun i => B (q.1 + i)) q.2 ↔ ∀ b ∈ t, ∃ a ∈ s, WeakDomDir n dir (obj a) (obj b) := by
  obtain ⟨r1, r2⟩ := hr
  obtain ⟨q1, q2⟩ := hq
  unfold SetWeakDomDir
  rw [r1, q1]
  constructor
  · intro h b hb
    obtain ⟨j, hj, rfl⟩ := List.getElem_of_mem hb
    obtain ⟨i, hi, h⟩ := h j hj
    exact ⟨s[i], List.getElem_mem hi, (weakDomDir_congr hd (r2 i hi) (q2 j hj)).1 h⟩
  · intro h j hj
    obtain ⟨a, ha, h⟩ := h t[j] (List.getElem_mem hj)
    obtain ⟨i, hi, rfl⟩ := List.getElem_of_mem ha
    exact ⟨i, hi, (weakDomDir_congr hd (r2 i hi) (q2 j hj)).2 h⟩

open Classical in
theorem betterRun_eq {n : ℕ} {dir dir' : ℕ → ℤ} (hd : ∀ k < n, dir' k = dir k) {A B : ℕ → ℕ → K} {r q : ℕ × ℕ} {s t : List (List K)} (hr : RunHolds n A r s) (hq : RunHolds n B q t) :
    betterRun n dir' A B r q = decide (SetBetter n dir s t) := by
  unfold betterRun SetBetter
  rw [decide_eq_decide, setWeakDomDir_iff hd hr hq, setWeakDomDir_iff hd hq hr]

theorem isFront_iff {n : ℕ} {dir dir' : ℕ → ℤ} (hd : ∀ k < n, dir' k = dir k) {A : ℕ → ℕ → K} {r : ℕ × ℕ} {s : List (List K)} (hr : RunHolds n A r s) :
    IsFront n dir' (fun i => A (r.1 + i)) r.2 ↔ FrontDir n dir s := by
  obtain ⟨r1, r2⟩ := hr
  unfold IsFront FrontDir
  rw [r1, List.pairwise_iff_getElem]
  constructor
  · intro h i j hi hj hij
    exact ⟨fun g => h i hi j hj (by omega) ((weakDomDir_congr hd (r2 i hi) (r2 j hj)).2 g), fun g => h j hj i hi (by omega) ((weakDomDir_congr hd (r2 j hj) (r2 i hi)).2 g)⟩
  · intro h i hi j hj hij g
    rcases Nat.lt_or_gt_of_ne hij with hlt | hlt
    · exact (h i j hi hj hlt).1 ((weakDomDir_congr hd (r2 i hi) (r2 j hj)).1 g)
    · exact (h j i hj hi hlt).2 ((weakDomDir_congr hd (r2 i hi) (r2 j hj)).1 g)

theorem forall₂_mem {α β : Type*} {R : α → β → Prop} {l : List α} {m : List β} (h : List.Forall₂ R l m) (p : α → Prop) (q : β → Prop) (hpq : ∀ a b, R a b → (p a ↔ q b)) :
    (∀ a ∈ l, p a) ↔ ∀ b ∈ m, q b := by
  induction h with
  | nil => simp
  | cons h1 _ ih => simp only [List.mem_cons, forall_eq_or_imp, hpq _ _ h1, ih]

theorem frontFile_iff {n : ℕ} {dir dir' : ℕ → ℤ} (hd : ∀ k < n, dir' k = dir k) {f : (ℕ → ℕ → K) × List ℕ} {sets : List (List (List K))} (h : FileHolds n f sets) :
    FrontFile n dir' f.1 f.2 ↔ ∀ s ∈ sets, s ≠ [] ∧ FrontDir n dir s := by
  refine forall₂_mem h _ _ ?_
  intro r s hr
  rw [isFront_iff hd hr, hr.1, List.length_pos_iff]

/-! ### Counting -/

theorem sum_countP_swap {α β : Type*} (p : α → β → Bool) (l : List α) (m : List β) : (l.map fun a => m.countP (p a)).sum = (m.map fun b => l.countP (p · b)).sum := by
  induction l with
  | nil => simp
  | cons a l ih =>
    rw [List.map_cons, List.sum_cons, ih]
    clear ih
    induction m with
    | nil => simp
    | cons b m ih =>
      simp only [List.map_cons, List.sum_cons, List.countP_cons] at *
      rw [← ih]
      omega

theorem length_filter_product {α β : Type*} (p : α × β → Bool) (l : List α) (m : List β) : ((l.product m).filter p).length = (l.map fun a => m.countP fun b => p (a, b)).sum := by
  induction l with
  | nil => simp
  | cons a l ih =>
    have hc : (a :: l).product m = m.map (fun b => (a, b)) ++ l.product m := List.product_cons _ _ _
    rw [hc, List.filter_append, List.length_append, ih, List.map_cons, List.sum_cons, List.filter_map, List.length_map, List.countP_eq_length_filter]
    rfl

theorem forall₂_countP {α β : Type*} {R : α → β → Prop} {l : List α} {m : List β} (h : List.Forall₂ R l m) (p : α → Bool) (q : β → Bool) (hpq : ∀ a b, R a b → p a = q b) : l.countP p = m.countP q := by
  induction h with
  | nil => rfl
  | cons h1 _ ih => rw [List.countP_cons, List.countP_cons, ih, hpq _ _ h1]

theorem forall₂_sum {α β : Type*} {R : α → β → Prop} {l : List α} {m : List β} (h : List.Forall₂ R l m) (p : α → ℕ) (q : β → ℕ) (hpq : ∀ a b, R a b → p a = q b) : (l.map p).sum = (m.map q).sum := by
  induction h with
  | nil => rfl
  | cons h1 _ ih => rw [List.map_cons, List.map_cons, List.sum_cons, List.sum_cons, ih, hpq _ _ h1]

theorem cmpparetos_eq {n : ℕ} {dir dir' : ℕ → ℤ} (hd : ∀ k < n, dir' k = dir k) {f g : (ℕ → ℕ → K) × List ℕ} {F G : List (List (List K))} (hf : FileHolds n f F) (hg : FileHolds n g G)
    (hF : ∀ s ∈ F, s ≠ [] ∧ FrontDir n dir s) (hG : ∀ s ∈ G, s ≠ [] ∧ FrontDir n dir s) :
    cmpparetos n dir' f.1 f.2 g.1 g.2 = some (betterPairs n dir F G, betterPairs n dir G F) := by
  classical
  rw [C39_cmpparetos ((frontFile_iff hd hf).2 hF) ((frontFile_iff hd hg).2 hG)]
  congr 2
  · unfold betterPairs
    rw [length_filter_product]
    refine forall₂_sum hf _ _ fun r s hr => forall₂_countP hg _ _ fun q t hq => ?_
    rw [betterRun_eq hd hr hq]
  · unfold betterPairs
    rw [length_filter_product, sum_countP_swap (fun r q => betterRun n dir' g.1 f.1 q r)]
    refine forall₂_sum hg _ _ fun q t hq => forall₂_countP hf _ _ fun r s hr => ?_
    rw [betterRun_eq hd hq hr]

/-! ### The table -/

theorem dsCompareRow_eq (n : ℕ) (minmax : ℕ → ℤ) (cnt : (ℕ → ℕ → K) × List ℕ → (ℕ → ℕ → K) × List ℕ → ℕ) (e : (ℕ → ℕ → K) × List ℕ) (f : (ℕ → ℕ → K) × List ℕ) (k : ℕ)
    (gs : List ((ℕ → ℕ → K) × List ℕ)) : ∀ (j : ℕ) (results : ℕ → ℕ → ℤ), k < j → (∀ g ∈ gs, cmpparetos n minmax f.1 f.2 g.1 g.2 = some (cnt f g, cnt g f)) →
    ∃ results', dsCompareRow n minmax f k j gs results = some results' ∧ ∀ a b, results' a b =
      if a = k ∧ j ≤ b ∧ b < j + gs.length then (cnt f (gs.getD (b - j) e) : ℤ) else if b = k ∧ j ≤ a ∧ a < j + gs.length then (cnt (gs.getD (a - j) e) f : ℤ) else results a b := by
  induction gs with
  | nil =>
    intro j results _ _
    refine ⟨results, rfl, ?_⟩
    intro a b
    rw [if_neg (by simp), if_neg (by simp)]
  | cons g gs ih =>
    intro j results hj h
    rw [dsCompareRow, h g (by simp)]
    dsimp only
    obtain ⟨res, e1, e2⟩ := ih (j + 1) (upd2 (upd2 results k j (cnt f g)) j k (cnt g f)) (by omega) (fun g hg => h g (by simp [hg]))
    refine ⟨res, e1, ?_⟩
    intro a b
    rw [e2, List.length_cons]
    have hget : ∀ c, j + 1 ≤ c → (g :: gs).getD (c - j) e = gs.getD (c - (j + 1)) e := by
      intro c hc
      rw [show c - j = (c - (j + 1)) + 1 by omega, List.getD_cons_succ]
    by_cases h1 : a = k ∧ j + 1 ≤ b ∧ b < j + 1 + gs.length
    · rw [if_pos h1, if_pos (by omega), hget b h1.2.1]
    · rw [if_neg h1]
      by_cases h2 : b = k ∧ j + 1 ≤ a ∧ a < j + 1 + gs.length
      · rw [if_pos h2, if_neg (by omega), if_pos (by omega), hget a h2.2.1]
      · rw [if_neg h2]
        unfold upd2 upd
        by_cases h3 : a = k ∧ b = j
        · obtain ⟨rfl, rfl⟩ := h3
          rw [if_pos (⟨rfl, le_rfl, by omega⟩ : a = a ∧ b ≤ b ∧ b < b + (gs.length + 1))]
          rw [if_neg (by omega), if_pos rfl, if_pos rfl]
          simp
        · by_cases h4 : b = k ∧ a = j
          · obtain ⟨rfl, rfl⟩ := h4
            rw [if_neg (by omega : ¬ (a = b ∧ a ≤ b ∧ b < a + (gs.length + 1))), if_pos (⟨rfl, le_rfl, by omega⟩ : b = b ∧ a ≤ a ∧ a < a + (gs.length + 1))]
            rw [if_pos rfl, if_pos rfl]
            simp
          · rw [if_neg (by omega : ¬ (a = k ∧ j ≤ b ∧ b < j + (gs.length + 1))), if_neg (by omega : ¬ (b = k ∧ j ≤ a ∧ a < j + (gs.length + 1)))]
            by_cases h5 : a = j
            · subst h5
              rw [if_pos rfl, if_neg (fun h => h4 ⟨h, rfl⟩), if_neg (by omega)]
            · rw [if_neg h5]
              by_cases h6 : a = k
              · subst h6
                rw [if_pos rfl, if_neg (fun h => h3 ⟨rfl, h⟩)]
              · rw [if_neg h6]

theorem dsCompare_eq (n : ℕ) (minmax : ℕ → ℤ) (cnt : (ℕ → ℕ → K) × List ℕ → (ℕ → ℕ → K) × List ℕ → ℕ) (e : (ℕ → ℕ → K) × List ℕ)
    (fs : List ((ℕ → ℕ → K) × List ℕ)) : ∀ (k : ℕ) (results : ℕ → ℕ → ℤ), (∀ f ∈ fs, ∀ g ∈ fs, cmpparetos n minmax f.1 f.2 g.1 g.2 = some (cnt f g, cnt g f)) →
    ∃ results', dsCompare n minmax k fs results = some results' ∧ ∀ a b, results' a b =
      if a ≠ b ∧ k ≤ a ∧ a < k + fs.length ∧ k ≤ b ∧ b < k + fs.length then (cnt (fs.getD (a - k) e) (fs.getD (b - k) e) : ℤ) else results a b := by
  induction fs with
  | nil =>
    intro k results _
    refine ⟨results, rfl, ?_⟩
    intro a b
    rw [if_neg (by simp)]
  | cons f fs ih =>
    intro k results h
    rw [dsCompare]
    obtain ⟨r1, e1, e2⟩ := dsCompareRow_eq n minmax cnt e f k fs (k + 1) results (by omega) (fun g hg => h f (by simp) g (by simp [hg]))
    rw [e1]
    dsimp only
    obtain ⟨r2, e3, e4⟩ := ih (k + 1) r1 (fun f hf g hg => h f (by simp [hf]) g (by simp [hg]))
    refine ⟨r2, e3, ?_⟩
    intro a b
    rw [e4, e2, List.length_cons]
    have hget : ∀ c, k + 1 ≤ c → (f :: fs).getD (c - k) e = fs.getD (c - (k + 1)) e := by
      intro c hc
      rw [show c - k = (c - (k + 1)) + 1 by omega, List.getD_cons_succ]
    by_cases h1 : a ≠ b ∧ k + 1 ≤ a ∧ a < k + 1 + fs.length ∧ k + 1 ≤ b ∧ b < k + 1 + fs.length
    · rw [if_pos h1, if_pos (by omega), hget a h1.2.1, hget b h1.2.2.2.1]
    · rw [if_neg h1]
      by_cases h2 : a = k ∧ k + 1 ≤ b ∧ b < k + 1 + fs.length
      · rw [if_pos h2, if_pos (by omega), hget b h2.2.1]
        obtain ⟨rfl, -⟩ := h2
        simp
      · rw [if_neg h2]
        by_cases h3 : b = k ∧ k + 1 ≤ a ∧ a < k + 1 + fs.length
        · rw [if_pos h3, if_pos (by omega), hget a h3.2.1]
          obtain ⟨rfl, -⟩ := h3
          simp
        · rw [if_neg h3, if_neg (by omega)]

/-! ### Reading and the check -/

theorem dsRead_eq {scan : NumScan K} (hs : ScanOk scan) {n : ℕ} {texts : List (List Char)} {F : List (List (List (List K)))} (h : List.Forall₂ (fun t s => TextSets scan t n s) texts F) :
    ∀ dim, dim = 0 ∨ dim = n → texts ≠ [] → ∃ data, dsRead scan dim texts = some (some (data, n)) ∧ List.Forall₂ (FileHolds n) data F := by
  induction h with
  | nil => intro _ _ h; exact absurd rfl h
  | @cons t s texts F h1 h2 ih =>
    intro dim hdim _
    rw [dsRead, readFile_ok hs h1 hdim]
    dsimp only
    have hf := fileHolds_of_holdsSets (holdsSets_flatten h1.shape.2.2.2)
    cases texts with
    | nil =>
      cases h2
      exact ⟨_, rfl, .cons hf .nil⟩
    | cons t' texts =>
      obtain ⟨data, e, hh⟩ := ih n (Or.inr rfl) (by simp)
      rw [e]
      exact ⟨_, rfl, .cons hf hh⟩

theorem dsRead_err {scan : NumScan K} (hs : ScanOk scan) {n : ℕ} {texts : List (List Char)} {F : List (List (List (List K)))} (h : List.Forall₂ (fun t s => TextSets scan t n s) texts F) {bad : List Char}
    (rest : List (List Char)) : ∀ dim, dim = 0 ∨ dim = n → Unreadable scan bad (if texts = [] then dim else n) → dsRead scan dim (texts ++ bad :: rest) = some none := by
  induction h with
  | nil =>
    intro dim _ hb
    rw [if_pos rfl] at hb
    rw [List.nil_append, dsRead, readFile_err hs hb]
  | @cons t s texts F h1 h2 ih =>
    intro dim hdim hb
    rw [if_neg (by simp)] at hb
    rw [List.cons_append, dsRead, readFile_ok hs h1 hdim]
    dsimp only
    rw [ih n (Or.inr rfl) (by split_ifs <;> exact hb)]

theorem dsCheckAll_eq {env : DsEnv K} (hsort : ∀ pp m, SortedPP2d pp m (env.sortFn pp m)) {n : ℕ} {dir dir' : ℕ → ℤ} (hd : ∀ k < n, dir' k = dir k) (hdir : ∀ k < n, dir k = -1 ∨ dir k = 1)
    {data : List ((ℕ → ℕ → K) × List ℕ)} {F : List (List (List (List K)))} (h : List.Forall₂ (FileHolds n) data F) : (∀ sets ∈ F, ∀ s ∈ sets, s ≠ []) →
    ∃ b, dsCheckAll env n dir' data = some b ∧ (b = false ↔ ∀ sets ∈ F, ∀ s ∈ sets, 2 ≤ s.length ∧ FrontDir n dir s) := by
  induction h with
  | nil => intro _; exact ⟨false, rfl, by simp⟩
  | @cons f sets data F h1 _ ih =>
    intro hne
    obtain ⟨b, e1, e2⟩ := ih fun sets hs => hne sets (by simp [hs])
    set mx : ℕ → Bool := fun k => decide (dir k = 1) with hmx
    have hm : ∀ k < n, dir' k = minmaxFromBool mx k := by
      intro k hk
      rw [hd k hk]
      unfold minmaxFromBool AGREE_MAXIMISE AGREE_MINIMISE
      rcases hdir k hk with h | h <;> simp [hmx, h]
    have hm' : ∀ k < n, minmaxFromBool mx k = dir k := fun k hk => (hm k hk).symm.trans (hd k hk)
    have hpos : ∀ r ∈ runsOf f.2 0, 1 ≤ r.2 := by
      rw [forall₂_mem h1 _ (fun s => s ≠ []) (fun r s hr => by rw [hr.1, Nat.one_le_iff_ne_zero, ne_eq, List.length_eq_zero_iff])]
      exact hne sets (by simp)
    obtain ⟨c, g1, g2⟩ := C39_check_exact env.sortFn env.garbage (dim := n) mx (P := f.1) (cum := f.2) hsort hpos
    refine ⟨c || b, ?_, ?_⟩
    · rw [dsCheckAll, dsCheckFailed_congr env.sortFn env.garbage n hm, g1]
      dsimp only
      rw [e1]
      rfl
    · rw [Bool.or_eq_false_iff, e2, g2, frontFile_iff hm' h1, forall₂_mem h1 (fun r => 2 ≤ r.2) (fun s => 2 ≤ s.length) (fun r s hr => by rw [hr.1])]
      simp only [List.mem_cons, forall_eq_or_imp]
      constructor
      · rintro ⟨⟨k1, k2⟩, k3⟩
        exact ⟨fun s hs => ⟨k2 s hs, (k1 s hs).2⟩, k3⟩
      · rintro ⟨k1, k2⟩
        exact ⟨⟨fun s hs => ⟨hne sets (by simp) s hs, (k1 s hs).2⟩, fun s hs => (k1 s hs).1⟩, k2⟩

/-! ### The options -/

/-- The options are accepted: the arguments of `-o` are directions. -/
def DsArgsOk (args : List DsArg) : Prop := ∀ str, DsArg.obj str ∈ args → (∀ c ∈ str, directionOf c ≠ none) ∧ ∃ c ∈ str, directionOf c ≠ some 0

theorem directionsArg_some {n : ℕ} {dir : ℕ → ℤ} {str : List Char} (h : DirectionsArg n dir (some str)) (k : ℕ) (hk : k < n) : ∃ c, str[k]? = some c ∧ directionOf c = some (dir k) := by
  obtain ⟨-, -, h3⟩ := h
  rcases h3 k hk with ⟨e, h⟩ | ⟨e, h⟩ | ⟨e, h | h⟩ <;> exact ⟨_, h, by rw [e]; rfl⟩

theorem dsOptions_ok (junk : ℕ → ℤ) (n : ℕ) (dir : ℕ → ℤ) : ∀ (args : List DsArg) (st : DsSt), DsArgsOk args → (∀ str, (args.filterMap DsArg.obj?).getLast? = some str → DirectionsArg n dir (some str)) →
    ((args.filterMap DsArg.obj?).getLast? = none → (st.dim = 0 ∨ st.dim = n) ∧ ∀ k < n, (st.minmax.getD fun _ => AGREE_MINIMISE) k = dir k) →
    ∃ dim mm, dsOptions junk st args = .ok ⟨st.percentages || decide (DsArg.percentages ∈ args), st.check && !decide (DsArg.noCheck ∈ args), dim, mm⟩ ∧ (dim = 0 ∨ dim = n) ∧
      ∀ k < n, (mm.getD fun _ => AGREE_MINIMISE) k = dir k := by
  intro args
  induction args with
  | nil =>
    intro st _ _ h
    exact ⟨st.dim, st.minmax, by simp [dsOptions], h rfl⟩
  | cons a args ih =>
    intro st h1 h2 h3
    have h1' : DsArgsOk args := fun str hs => h1 str (by simp [hs])
    cases a with
    | percentages =>
      rw [dsOptions]
      obtain ⟨dim, mm, e, g⟩ := ih { st with percentages := true } h1' h2 h3
      exact ⟨dim, mm, by rw [e]; simp, g⟩
    | noCheck =>
      rw [dsOptions]
      obtain ⟨dim, mm, e, g⟩ := ih { st with check := false } h1' h2 h3
      exact ⟨dim, mm, by rw [e]; simp, g⟩
    | obj str =>
      rw [dsOptions]
      obtain ⟨g1, g2⟩ := h1 str (by simp)
      obtain ⟨minmax, e1, e2⟩ := C44_directions junk str st.dim g1 g2
      rw [e1]
      dsimp only
      have hlast : (List.filterMap DsArg.obj? (DsArg.obj str :: args)).getLast? = some ((args.filterMap DsArg.obj?).getLast?.getD str) := by
        rw [List.filterMap_cons]
        simp only [DsArg.obj?]
        rw [List.getLast?_cons]
      obtain ⟨dim, mm, e, g⟩ := ih { st with dim := str.length, minmax := some minmax } h1' (by
          intro s hs
          exact h2 s (by rw [hlast, hs]; rfl)) (by
          intro hn
          have hD := h2 str (by rw [hlast, hn]; rfl)
          refine ⟨Or.inr hD.1, ?_⟩
          intro k hk
          obtain ⟨c, c1, c2⟩ := e2 k (lt_max_of_lt_left (by rw [hD.1]; exact hk))
          obtain ⟨c', c3, c4⟩ := directionsArg_some hD k hk
          rw [Nat.mod_eq_of_lt (by rw [hD.1]; exact hk), c3, Option.some.injEq] at c1
          subst c1
          rw [c4, Option.some.injEq] at c2
          exact c2.symm)
      exact ⟨dim, mm, by rw [e]; simp, g⟩

end

end Moo
