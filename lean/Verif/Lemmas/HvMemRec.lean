import Verif.Lemmas.HvMemBase

/-!
# The recursion of the hypervolume computation makes only valid memory accesses
-/

set_option autoImplicit false
set_option linter.unusedSectionVars false

namespace Moo

variable {x : ℕ → ℕ → ℝ} {ref : ℕ → ℝ} {pos : ℕ → ℕ → ℕ} {n d : ℕ}

/-- What is initialised stays initialised. -/
def HvMono (M M' : HvMem ℝ) : Prop :=
  (∀ i p, (M.area i p).isSome → (M'.area i p).isSome) ∧ ∀ i p, (M.vol i p).isSome → (M'.vol i p).isSome

theorem HvMono.rfl' (M : HvMem ℝ) : HvMono M M := ⟨fun _ _ h => h, fun _ _ h => h⟩

theorem HvMono.trans {M1 M2 M3 : HvMem ℝ} (h1 : HvMono M1 M2) (h2 : HvMono M2 M3) : HvMono M1 M3 :=
  ⟨fun i p h => h2.1 i p (h1.1 i p h), fun i p h => h2.2 i p (h1.2 i p h)⟩

theorem HvMono.of_eq {M M' : HvMem ℝ} (ha : M'.area = M.area) (hv : M'.vol = M.vol) : HvMono M M' :=
  ⟨fun i p h => by rw [ha]; exact h, fun i p h => by rw [hv]; exact h⟩

theorem isSome_upd2 {β : Type*} {a : ℕ → ℕ → Option β} {i p : ℕ} {v : β} {i' p' : ℕ} (h : (a i' p').isSome) :
    (upd2 a i p (some v) i' p').isSome := by
  rw [upd2_at]
  split
  · rfl
  · exact h

theorem isSome_upd2_same {β : Type*} {a : ℕ → ℕ → Option β} {i p : ℕ} {v : β} : (upd2 a i p (some v) i p).isSome := by
  rw [upd2_at, if_pos ⟨rfl, rfl⟩]; rfl

theorem HvMono.of_area {M M' : HvMem ℝ} {i p : ℕ} {v : ℝ} (ha : M'.area = upd2 M.area i p (some v)) (hv : M'.vol = M.vol) : HvMono M M' :=
  ⟨fun i p h => by rw [ha]; exact isSome_upd2 h, fun i p h => by rw [hv]; exact h⟩

theorem HvMono.of_vol {M M' : HvMem ℝ} {i p : ℕ} {v : ℝ} (ha : M'.area = M.area) (hv : M'.vol = upd2 M.vol i p (some v)) : HvMono M M' :=
  ⟨fun i p h => by rw [ha]; exact h, fun i p h => by rw [hv]; exact isSome_upd2 h⟩

/-- The values of dimensions `3, …, j` of the nodes below the bound are initialised. -/
def CacheDef (x : ℕ → ℕ → ℝ) (j : ℕ) (A : List ℕ) (S : HvState ℝ) (M : HvMem ℝ) : Prop :=
  ∀ i, 3 ≤ i → i ≤ j → ∀ q ∈ A, x q i < S.bound i → (M.area i q).isSome ∧ (M.vol i q).isSome

theorem CacheDef.mono {j : ℕ} {A : List ℕ} {S S' : HvState ℝ} {M M' : HvMem ℝ} (h : CacheDef x j A S M) (hm : HvMono M M')
    (hb : ∀ i, 3 ≤ i → i ≤ j → S'.bound i ≤ S.bound i) : CacheDef x j A S' M' := by
  intro i h3 hi q hq hlt
  obtain ⟨h1, h2⟩ := h i h3 hi q hq (lt_of_lt_of_le hlt (hb i h3 hi))
  exact ⟨hm.1 i q h1, hm.2 i q h2⟩

/-- The run of `recM` on the checked memory succeeds and does what `rec` does on unchecked memory. -/
def SafeRec (x : ℕ → ℕ → ℝ) (pos : ℕ → ℕ → ℕ) (n d j : ℕ) (recM : ℕ → HvMem ℝ → Option (ℝ × HvMem ℝ))
    (rec : ℕ → HvState ℝ → ℝ × HvState ℝ) : Prop :=
  ∀ (A : List ℕ) (S : HvState ℝ) (M : HvMem ℝ), HvLists pos n j A S → (∀ p ∈ A, p ≤ n) → HvAgree n d M S → CacheDef x j A S M →
    ∃ M', recM A.length M = some ((rec A.length S).1, M') ∧ HvAgree n d M' (rec A.length S).2 ∧ links (rec A.length S).2 = links S ∧
      HvMono M M' ∧ CacheDef x j A (rec A.length S).2 M' ∧ ∀ i, j < i → (rec A.length S).2.bound i = S.bound i

/-! ### Three objectives -/

theorem hv3dPop_mem (x : ℕ → ℕ → ℝ) (ref : ℕ → ℝ) (pp : ℕ) (nxt0 : ℝ) : ∀ (T : List ℕ) (h : ℝ), ∀ t ∈ (hv3dPop x ref pp nxt0 T h).1, t ∈ T
  | [], _ => fun t ht => by simp [hv3dPop] at ht
  | [cur], _ => fun t ht => by simp [hv3dPop] at ht
  | cur :: prv :: rest, h => by
    intro t ht
    unfold hv3dPop at ht
    dsimp only at ht
    split at ht
    · exact List.mem_cons_of_mem _ ht
    · exact List.mem_cons_of_mem _ (hv3dPop_mem x ref pp nxt0 (prv :: rest) _ t ht)

theorem hv3dUpdate_mem {T : List ℕ} {pp : ℕ} {a : ℝ} {r : List ℕ × ℝ} (h : hv3dUpdate x ref T pp a = some r) : ∀ t ∈ r.1, t ∈ pp :: T := by
  unfold hv3dUpdate at h
  dsimp only at h
  set before := T.takeWhile (fun t => decide (0 < compareTreeAsc (x pp) (x t))) with hbef
  set after := T.dropWhile (fun t => decide (0 < compareTreeAsc (x pp) (x t))) with haft
  have hb : ∀ t ∈ before, t ∈ T := fun t ht => (List.takeWhile_sublist _).subset ht
  have ha : ∀ t ∈ after, t ∈ T := fun t ht => (List.dropWhile_sublist _).subset ht
  split at h
  · split at h
    · cases h
      intro t ht
      rcases List.mem_cons.1 ht with h | h
      · rw [h]; simp
      · exact List.mem_cons_of_mem _ (ha t h)
    · rename_i t0 rest hrev
      split at h
      · cases h
        intro t ht
        rcases List.mem_append.1 ht with h | h
        · have := hv3dPop_mem x ref pp _ _ _ t (List.mem_reverse.1 h)
          rw [← hrev] at this
          exact List.mem_cons_of_mem _ (hb t (List.mem_reverse.1 this))
        · rcases List.mem_cons.1 h with h | h
          · rw [h]; simp
          · exact List.mem_cons_of_mem _ (ha t h)
      · cases h
        intro t ht
        rcases List.mem_append.1 ht with h | h
        · exact List.mem_cons_of_mem _ (hb t h)
        · rcases List.mem_cons.1 h with h | h
          · rw [h]; simp
          · exact List.mem_cons_of_mem _ (ha t h)
  · cases h

theorem bound_hv3dLoop (x : ℕ → ℕ → ℝ) (ref : ℕ → ℝ) : ∀ (fuel pp : ℕ) (T : List ℕ) (a v : ℝ) (S : HvState ℝ),
    (hv3dLoop x ref fuel pp T a v S).2.bound = S.bound
  | 0, _, _, _, _, _ => rfl
  | fuel + 1, pp, T, a, v, S => by
    unfold hv3dLoop
    dsimp only
    by_cases hig : S.ignore pp ≥ 2
    · simp only [if_pos hig]
      by_cases hn : S.next 2 pp = 0
      · rw [if_pos hn]
      · rw [if_neg hn]; exact bound_hv3dLoop x ref fuel _ _ _ _ _
    · simp only [if_neg hig]
      cases hu : hv3dUpdate x ref T pp a with
      | none =>
        dsimp only
        by_cases hn : S.next 2 pp = 0
        · rw [if_pos hn]
        · rw [if_neg hn, bound_hv3dLoop x ref fuel]
      | some r =>
        dsimp only
        by_cases hn : S.next 2 pp = 0
        · rw [if_pos hn]
        · rw [if_neg hn]; exact bound_hv3dLoop x ref fuel _ _ _ _ _

theorem memHeight_eq (hd : 3 ≤ d) {M : HvMem ℝ} {S : HvState ℝ} (h : HvAgree n d M S) {pp : ℕ} (hp1 : 1 ≤ pp) (hp : pp ≤ n) (b : Bool)
    (hq : b = false → 1 ≤ S.next 2 pp) :
    memHeight x ref n d b pp M = some (if b = true then ref 2 - x pp 2 else x (S.next 2 pp) 2 - x pp 2) := by
  unfold memHeight
  cases b with
  | true =>
    rw [if_pos rfl, if_pos rfl, rdRef_some (by omega), rdData_some hp1 hp (by omega)]; rfl
  | false =>
    rw [if_neg (by simp), if_neg (by simp), h.next 2 (by omega) pp hp]
    simp only [Option.bind_eq_bind, Option.bind_some]
    rw [rdData_some (hq rfl) (h.nextLe 2 (by omega) pp hp) (by omega), rdData_some hp1 hp (by omega)]; rfl

theorem memHv3dLoop_safe (hd : 3 ≤ d) {nx pv : ℕ → ℕ} {l : List ℕ} (hl : ∀ p ∈ l, 1 ≤ p ∧ p ≤ n) (hlink : Linked nx pv l) :
    ∀ (s r : List ℕ) (pp fuel : ℕ) (T : List ℕ) (a v : ℝ) (S : HvState ℝ) (M : HvMem ℝ), l = r ++ pp :: s → s.length < fuel →
      (∀ t ∈ T, t ∈ l) → S.next 2 = nx → S.prev 2 = pv → HvAgree n d M S →
      ∃ M', memHv3dLoop x ref n d fuel pp T a v M = some ((hv3dLoop x ref fuel pp T a v S).1, M') ∧
        HvAgree n d M' (hv3dLoop x ref fuel pp T a v S).2 ∧ M'.area = M.area ∧ M'.vol = M.vol := by
  intro s
  induction s with
  | nil =>
    intro r pp fuel T a v S M hlr hf hT hnx hpv h
    obtain ⟨f, rfl⟩ : ∃ f, fuel = f + 1 := ⟨fuel - 1, by simp at hf; omega⟩
    have hpp := hl pp (by rw [hlr]; simp)
    have hat := LinkedFrom.at (hlr ▸ hlink : Linked nx pv (r ++ pp :: []))
    have hn0 : S.next 2 pp = 0 := by rw [hnx]; exact hat.2.2.1
    have hlast : S.prev 2 0 = pp := by rw [hpv]; exact hat.2.2.2
    have hT' : ∀ t ∈ pp :: T, 1 ≤ t ∧ t ≤ n := by
      intro t ht
      rcases List.mem_cons.1 ht with h | h
      · rw [h]; exact hpp
      · exact hl t (hT t h)
    unfold memHv3dLoop hv3dLoop memHv3dBody
    have hH := memHeight_eq (x := x) (ref := ref) hd h hpp.1 hpp.2 (decide (pp = S.prev 2 0)) (by rw [hlast]; simp)
    simp only [h.prev 2 (by omega) 0 (by omega), Option.bind_eq_bind, Option.bind_some, hH, h.ignore pp hpp.2, decide_eq_true_eq]
    set H := (if pp = S.prev 2 0 then ref 2 - x pp 2 else x (S.next 2 pp) 2 - x pp 2) with hHdef
    by_cases hig : S.ignore pp ≥ 2
    · simp only [if_pos hig, Option.bind_some, h.next 2 (by omega) pp hpp.2, hn0, if_true]
      exact ⟨M, rfl, h, rfl, rfl⟩
    · simp only [if_neg hig, if_pos hT']
      cases hu : hv3dUpdate x ref T pp a with
      | none =>
        obtain ⟨M1, e1, h1, a1, v1⟩ := h.setIgnore hpp.2 2
        simp only [e1, Option.bind_some, h1.next 2 (by omega) pp hpp.2, hn0, if_true]
        exact ⟨M1, rfl, h1, a1, v1⟩
      | some q =>
        simp only [Option.bind_some, h.next 2 (by omega) pp hpp.2, hn0, if_true]
        exact ⟨M, rfl, h, rfl, rfl⟩
  | cons q s ih =>
    intro r pp fuel T a v S M hlr hf hT hnx hpv h
    obtain ⟨f, rfl⟩ : ∃ f, fuel = f + 1 := ⟨fuel - 1, by simp at hf; omega⟩
    have hpp := hl pp (by rw [hlr]; simp)
    have hq := hl q (by rw [hlr]; simp)
    have hat := LinkedFrom.at (hlr ▸ hlink : Linked nx pv (r ++ pp :: q :: s))
    have hn0 : S.next 2 pp = q := by rw [hnx]; exact hat.2.2.1
    have hq0 : ¬ q = 0 := by omega
    have hlr' : l = (r ++ [pp]) ++ q :: s := by rw [hlr]; simp
    have hpl : pp ∈ l := by rw [hlr]; simp
    have hf' : s.length < f := by simp at hf; omega
    have hT' : ∀ t ∈ pp :: T, 1 ≤ t ∧ t ≤ n := by
      intro t ht
      rcases List.mem_cons.1 ht with h | h
      · rw [h]; exact hpp
      · exact hl t (hT t h)
    unfold memHv3dLoop hv3dLoop memHv3dBody
    have hH := memHeight_eq (x := x) (ref := ref) hd h hpp.1 hpp.2 (decide (pp = S.prev 2 0)) (by rw [hn0]; intro _; exact hq.1)
    simp only [h.prev 2 (by omega) 0 (by omega), Option.bind_eq_bind, Option.bind_some, hH, h.ignore pp hpp.2, decide_eq_true_eq]
    set H := (if pp = S.prev 2 0 then ref 2 - x pp 2 else x (S.next 2 pp) 2 - x pp 2) with hHdef
    by_cases hig : S.ignore pp ≥ 2
    · simp only [if_pos hig, Option.bind_some, h.next 2 (by omega) pp hpp.2, hn0, if_neg hq0]
      exact ih (r ++ [pp]) q f T _ _ S M hlr' hf' hT hnx hpv h
    · simp only [if_neg hig, if_pos hT']
      cases hu : hv3dUpdate x ref T pp a with
      | none =>
        obtain ⟨M1, e1, h1, a1, v1⟩ := h.setIgnore hpp.2 2
        simp only [e1, Option.bind_some, h1.next 2 (by omega) pp hpp.2, hn0, if_neg hq0]
        obtain ⟨M2, e2, h2, a2, v2⟩ := ih (r ++ [pp]) q f T a (if H > 0 then v + a * H else v) { S with ignore := upd S.ignore pp 2 } M1 hlr' hf' hT hnx hpv h1
        exact ⟨M2, e2, h2, a2.trans a1, v2.trans v1⟩
      | some q' =>
        simp only [Option.bind_some, h.next 2 (by omega) pp hpp.2, hn0, if_neg hq0]
        refine ih (r ++ [pp]) q f q'.1 q'.2 _ S M hlr' hf' (fun t ht => ?_) hnx hpv h
        rcases List.mem_cons.1 (hv3dUpdate_mem hu t ht) with h | h
        · rw [h]; exact hpl
        · exact hT t h

theorem memHv3dRef_safe (hd : 3 ≤ d) : SafeRec x pos n d 2 (memHv3dRef x ref n d) (hv3dRef x ref) := by
  intro A S M hA hAn h _
  obtain ⟨l, hmem, hl, hlink⟩ := hA.lists 2 (le_refl _) (le_refl _)
  have hlen : l.length = A.length := length_eq_of_mem_iff (pairwise_pos_nodup hl) hA.nodup hmem
  have hlb : ∀ p ∈ l, 1 ≤ p ∧ p ≤ n := by
    intro p hp
    have hpA := (hmem p).1 hp
    refine ⟨?_, hAn p hpA⟩
    rcases Nat.eq_zero_or_pos p with h | h
    · exact absurd (h ▸ hpA) hA.zero
    · exact h
  have hbound : (hv3dRef x ref A.length S).2.bound = S.bound := by
    unfold hv3dRef
    dsimp only
    split
    · rfl
    · exact bound_hv3dLoop ..
  suffices hs : ∃ M', memHv3dRef x ref n d A.length M = some ((hv3dRef x ref A.length S).1, M') ∧
      HvAgree n d M' (hv3dRef x ref A.length S).2 ∧ M'.area = M.area ∧ M'.vol = M.vol by
    obtain ⟨M', e, g, a, v⟩ := hs
    refine ⟨M', e, g, links_hv3dRef x ref _ S, HvMono.of_eq a v, ?_, fun i _ => by rw [hbound]⟩
    intro i h3 h2; omega
  match l, hlen, hlb, hlink, hl with
  | [], hlen, _, _, _ => exact absurd (List.length_eq_zero_iff.1 hlen.symm) hA.ne
  | [p], hlen, hlb, hlink, _ =>
    have hp := hlb p (by simp)
    have e0 : S.next 2 0 = p := hlink.1
    have e1 : S.next 2 p = 0 := hlink.2.2.1
    have hc : A.length = 1 := hlen.symm
    have hH := memHeight_eq (x := x) (ref := ref) hd h hp.1 hp.2 (decide (A.length = 1)) (by rw [hc]; simp)
    unfold memHv3dRef hv3dRef
    simp only [h.next 2 (by omega) 0 (by omega), Option.bind_eq_bind, Option.bind_some, e0, rdRef_some (ref := ref) (show 0 < d by omega),
      rdRef_some (ref := ref) (show 1 < d by omega), rdData_some (x := x) hp.1 hp.2 (show 0 < d by omega),
      rdData_some (x := x) hp.1 hp.2 (show 1 < d by omega), hH, h.next 2 (by omega) p hp.2, e1, if_true, decide_eq_true_eq]
    exact ⟨M, rfl, h, rfl, rfl⟩
  | p :: q :: s, hlen, hlb, hlink, hl =>
    have hp := hlb p (by simp)
    have hq := hlb q (by simp)
    have e0 : S.next 2 0 = p := hlink.1
    have e1 : S.next 2 p = q := hlink.2.2.1
    have hq0 : ¬ q = 0 := by omega
    have hH := memHeight_eq (x := x) (ref := ref) hd h hp.1 hp.2 (decide (A.length = 1)) (by rw [e1]; intro _; exact hq.1)
    unfold memHv3dRef hv3dRef
    simp only [h.next 2 (by omega) 0 (by omega), Option.bind_eq_bind, Option.bind_some, e0, rdRef_some (ref := ref) (show 0 < d by omega),
      rdRef_some (ref := ref) (show 1 < d by omega), rdData_some (x := x) hp.1 hp.2 (show 0 < d by omega),
      rdData_some (x := x) hp.1 hp.2 (show 1 < d by omega), hH, h.next 2 (by omega) p hp.2, e1, if_neg hq0, decide_eq_true_eq]
    refine memHv3dLoop_safe hd hlb hlink s [p] q A.length [p] _ _ S M rfl ?_ (by simp) rfl rfl h
    simp at hlen; omega

/-! ### One level -/

variable {j : ℕ} {l : List ℕ} {S0 : HvState ℝ}

theorem memSkip_safe {recM : ℕ → HvMem ℝ → Option (ℝ × HvMem ℝ)} {rec : ℕ → HvState ℝ → ℝ × HvState ℝ}
    (hrec : SafeRec x pos n d j recM rec) (hjd : j + 1 < d) {A : List ℕ} {S : HvState ℝ} {M : HvMem ℝ} (hA : HvLists pos n j A S)
    (hAn : ∀ p ∈ A, p ≤ n) (h : HvAgree n d M S) (hcd : CacheDef x j A S M) {p : ℕ} (hp : p ≤ n)
    (hpa : (M.area (j + 1) (S.prev (j + 1) p)).isSome) :
    ∃ M', memSkip recM n d (j + 1) A.length p M = some M' ∧ HvAgree n d M' (skipOrRecurse rec (j + 1) A.length p S) ∧
      links (skipOrRecurse rec (j + 1) A.length p S) = links S ∧ HvMono M M' ∧ CacheDef x j A (skipOrRecurse rec (j + 1) A.length p S) M' ∧
      (∀ i, j < i → (skipOrRecurse rec (j + 1) A.length p S).bound i = S.bound i) ∧ (M'.area (j + 1) p).isSome := by
  unfold memSkip skipOrRecurse
  simp only [h.ignore p hp, Option.bind_eq_bind, Option.bind_some]
  by_cases hig : S.ignore p ≥ j + 1
  · obtain ⟨M1, e1, h1, a1, v1⟩ := h.setArea hjd hp (S.area (j + 1) (S.prev (j + 1) p))
    simp only [if_pos hig, h.prev _ hjd p hp, Option.bind_some, h.areaSome hpa]
    have hm := HvMono.of_area a1 v1
    refine ⟨M1, e1, h1, ?_, hm, hcd.mono hm (fun _ _ _ => le_refl _), ?_, by rw [a1]; exact isSome_upd2_same⟩
    · trivial
    · intro _ _; trivial
  · obtain ⟨M1, e1, h1, l1, m1, c1, b1⟩ := hrec A S M hA hAn h hcd
    obtain ⟨M2, e2, h2, a2, v2⟩ := h1.setArea hjd hp (rec A.length S).1
    have hm2 := m1.trans (HvMono.of_area a2 v2)
    have hpv : (rec A.length S).2.prev (j + 1) p = S.prev (j + 1) p := by
      have : (rec A.length S).2.prev = S.prev := congrArg Prod.snd l1
      rw [this]
    have hpp : (M2.area (j + 1) p).isSome := by rw [a2]; exact isSome_upd2_same
    have hpa2 : (M2.area (j + 1) ((rec A.length S).2.prev (j + 1) p)).isSome := by rw [hpv]; exact hm2.1 _ _ hpa
    have ep : M2.area (j + 1) p = some (upd2 (rec A.length S).2.area (j + 1) p (rec A.length S).1 (j + 1) p) := h2.areaSome hpp
    have eq : M2.area (j + 1) ((rec A.length S).2.prev (j + 1) p) =
      some (upd2 (rec A.length S).2.area (j + 1) p (rec A.length S).1 (j + 1) ((rec A.length S).2.prev (j + 1) p)) := h2.areaSome hpa2
    have ev : M2.prev (j + 1) p = some ((rec A.length S).2.prev (j + 1) p) := h2.prev _ hjd p hp
    have hcd2 : CacheDef x j A (rec A.length S).2 M2 := c1.mono (HvMono.of_area a2 v2) (fun _ _ _ => le_refl _)
    simp only [if_neg hig, e1, Option.bind_some, e2, ep, ev, eq]
    by_cases hc : upd2 (rec A.length S).2.area (j + 1) p (rec A.length S).1 (j + 1) p ≤
        upd2 (rec A.length S).2.area (j + 1) p (rec A.length S).1 (j + 1) ((rec A.length S).2.prev (j + 1) p)
    · obtain ⟨M3, e3, h3, a3, v3⟩ := h2.setIgnore hp (j + 1)
      simp only [if_pos hc]
      refine ⟨M3, e3, h3, l1, hm2.trans (HvMono.of_eq a3 v3), hcd2.mono (HvMono.of_eq a3 v3) (fun _ _ _ => le_refl _), b1, ?_⟩
      rw [a3]; exact hpp
    · simp only [if_neg hc]
      exact ⟨M2, rfl, h2, l1, hm2, hcd2, b1, hpp⟩

theorem memReset_safe (hjd : j + 1 < d) : ∀ (r s : List ℕ) (fuel : ℕ) (S : HvState ℝ) (M : HvMem ℝ), Linked (S.next (j + 1)) (S.prev (j + 1)) (r ++ s) →
    (∀ p ∈ r, 1 ≤ p ∧ p ≤ n) → r.length ≤ fuel → HvAgree n d M S →
    ∃ M', memReset n (j + 1) fuel (lastD 0 r) M = some M' ∧ HvAgree n d M' (hvReset (j + 1) fuel (lastD 0 r) S) ∧ M'.area = M.area ∧
      M'.vol = M.vol := by
  intro r
  induction r using List.reverseRecOn with
  | nil =>
    intro s fuel S M _ _ _ h
    cases fuel with
    | zero => exact ⟨M, rfl, h, rfl, rfl⟩
    | succ f => exact ⟨M, rfl, h, rfl, rfl⟩
  | append_singleton r p ih =>
    intro s fuel S M hl hr hf h
    obtain ⟨f, rfl⟩ : ∃ f, fuel = f + 1 := ⟨fuel - 1, by simp at hf; omega⟩
    have hp := hr p (by simp)
    have hp0 : ¬ p = 0 := by omega
    have hl' : Linked (S.next (j + 1)) (S.prev (j + 1)) (r ++ p :: s) := by rw [List.append_assoc] at hl; exact hl
    have hat := LinkedFrom.at hl'
    have hfl : r.length ≤ f := by simp at hf; omega
    have hr' : ∀ q ∈ r, 1 ≤ q ∧ q ≤ n := fun q hq => hr q (List.mem_append_left _ hq)
    unfold memReset hvReset
    rw [lastD_append_singleton, if_neg hp0, if_neg hp0]
    simp only [h.ignore p hp.2, Option.bind_eq_bind, Option.bind_some]
    by_cases hlt : S.ignore p < j + 1
    · obtain ⟨M1, e1, h1, a1, v1⟩ := h.setIgnore hp.2 0
      simp only [if_pos hlt, e1, Option.bind_some, h1.prev _ hjd p hp.2, hat.1]
      obtain ⟨M2, e2, h2, a2, v2⟩ := ih (p :: s) f { S with ignore := upd S.ignore p 0 } M1 hl' hr' hfl h1
      exact ⟨M2, e2, h2, a2.trans a1, v2.trans v1⟩
    · simp only [if_neg hlt, Option.bind_some, h.prev _ hjd p hp.2, hat.1]
      exact ih (p :: s) f S M hl' hr' hfl h

theorem memDelLoop_safe (hjd : j + 1 < d) (hsort : ∀ i < d, ∀ p q, 1 ≤ p → p ≤ n → 1 ≤ q → q ≤ n → pos i p < pos i q → x p i ≤ x q i)
    (hc : LvlLinks pos n j l S0) (hlb : ∀ p ∈ l, 1 ≤ p ∧ p ≤ n) (M0 : HvMem ℝ) (b : ℝ) :
    ∀ (m : ℕ) (r s : List ℕ) (S : HvState ℝ) (M : HvMem ℝ), r.length = m → r ≠ [] →
    l = r ++ s → links S = delLinks (j + 1) (links S0) s → HvAgree n d M S → M.area = M0.area → M.vol = M0.vol → S.bound (j + 1) = b →
    (∀ i, j + 1 < i → S.bound i = S0.bound i) → CacheDef x j r S M →
    ∃ (r' : List ℕ) (p1 : ℕ) (s' : List ℕ) (S' : HvState ℝ) (M' : HvMem ℝ),
      hvDelLoop x (j + 1) m (s.headD 0) (lastD 0 r) S = (r'.length + 1, s'.headD 0, p1, S') ∧
      memDelLoop x n d (j + 1) m (s.headD 0) (lastD 0 r) M = some (r'.length + 1, s'.headD 0, p1, M') ∧
      l = r' ++ p1 :: s' ∧ links S' = delLinks (j + 1) (links S0) s' ∧ HvAgree n d M' S' ∧ M'.area = M0.area ∧ M'.vol = M0.vol ∧
      (∀ i, j + 1 < i → S'.bound i = S0.bound i) ∧ CacheDef x j (r' ++ [p1]) S' M' ∧ ∀ q ∈ r', x q (j + 1) < b := by
  intro m
  induction m with
  | zero =>
    intro r s S M hlen hne
    exact absurd (List.length_eq_zero_iff.1 hlen) hne
  | succ m ih =>
    intro r s S M hlen hne hl hlnk h ha hv hb hbi hcd
    rcases List.eq_nil_or_concat r with rfl | ⟨r', p1, rfl⟩
    · exact absurd rfl hne
    rw [List.concat_eq_append] at *
    have hl' : l = r' ++ p1 :: s := by rw [hl]; simp
    have hlen' : r'.length = m := by simp at hlen; exact hlen
    have hj2 := hc.j2
    have hp1 := hlb p1 (by rw [hl']; simp)
    have hprev : S.prev (j + 1) p1 = lastD 0 r' := by
      have h1 := delLinks_of_not (j + 1) (links S0) s (j + 1) (by omega)
      have h2 : S.prev = (delLinks (j + 1) (links S0) s).2 := congrArg Prod.snd hlnk
      have hat := LinkedFrom.at (hl' ▸ hc.link : Linked _ _ (r' ++ p1 :: s))
      rw [h2, h1.2]; exact hat.1
    have hlastB : m + 1 > 1 → lastD 0 r' ∈ r' := by
      intro hm
      rcases List.mem_cons.1 (lastD_mem 0 r') with h | h
      · rcases List.eq_nil_or_concat r' with rfl | ⟨r2, p2, rfl⟩
        · simp at hlen'; omega
        · rw [List.concat_eq_append, lastD_append_singleton]; simp
      · exact h
    have hcondM : memDelCond x n d (j + 1) m p1 M =
        some (decide (m + 1 > 1 ∧ (x p1 (j + 1) > S.bound (j + 1) ∨ x (S.prev (j + 1) p1) (j + 1) ≥ S.bound (j + 1)))) := by
      unfold memDelCond
      by_cases hm : m + 1 > 1
      · have hq := hlb (lastD 0 r') (by rw [hl']; exact List.mem_append_left _ (hlastB hm))
        simp only [if_pos hm, rdData_some (x := x) hp1.1 hp1.2 hjd, h.bound _ hjd, Option.bind_eq_bind, Option.bind_some,
          h.prev _ hjd p1 hp1.2, hprev, rdData_some (x := x) hq.1 hq.2 hjd]
        by_cases h1 : x p1 (j + 1) > S.bound (j + 1)
        · rw [if_pos h1, decide_eq_true ⟨hm, Or.inl h1⟩]
        · rw [if_neg h1]
          by_cases h2 : x (lastD 0 r') (j + 1) ≥ S.bound (j + 1)
          · rw [decide_eq_true h2, decide_eq_true ⟨hm, Or.inr h2⟩]
          · rw [decide_eq_false h2, decide_eq_false (fun hh => hh.2.elim h1 h2)]
      · rw [if_neg hm, decide_eq_false (fun hh => hm hh.1)]
    rw [lastD_append_singleton]
    unfold hvDelLoop memDelLoop
    rw [hcondM]
    simp only [Option.bind_eq_bind, Option.bind_some, decide_eq_true_eq]
    by_cases hcond : m + 1 > 1 ∧ (x p1 (j + 1) > S.bound (j + 1) ∨ x (S.prev (j + 1) p1) (j + 1) ≥ S.bound (j + 1))
    · rw [if_pos hcond, if_pos hcond]
      obtain ⟨M1, e1, h1, a1, v1⟩ := memDeleteLoop_agree (x := x) h hp1.1 hp1.2 (j + 1 - 2) (by omega)
      have hlnk1 : links (hvDelete x p1 (j + 1) S) = delLinks (j + 1) (links S0) (p1 :: s) := by
        rw [links_hvDelete p1 (j + 1) (by omega), hlnk]; rfl
      have hprev1 : (hvDelete x p1 (j + 1) S).prev (j + 1) p1 = lastD 0 r' := by
        have h := delLinks_of_not (j + 1) (links S0) (p1 :: s) (j + 1) (by omega)
        have h2 : (hvDelete x p1 (j + 1) S).prev = (delLinks (j + 1) (links S0) (p1 :: s)).2 := congrArg Prod.snd hlnk1
        have hat := LinkedFrom.at (hl' ▸ hc.link : Linked _ _ (r' ++ p1 :: s))
        rw [h2, h.2]; exact hat.1
      obtain ⟨-, -, -, hbd⟩ := hvDelete_rest (x := x) p1 (j + 1) (by omega) S
      have h1' : HvAgree n d M1 (hvDelete x p1 (j + 1) S) := h1
      have hne' : r' ≠ [] := by
        intro he
        rw [he] at hlen'
        simp at hlen'
        omega
      simp only [e1, Option.bind_some, h1'.prev _ hjd p1 hp1.2, hprev1]
      refine ih r' (p1 :: s) _ M1 hlen' hne' hl' hlnk1 h1' (a1.trans ha) (v1.trans hv) ?_ ?_ ?_
      · rw [hbd, if_neg (by omega)]; exact hb
      · intro i hi
        rw [hbd, if_neg (by omega)]; exact hbi i hi
      · have : CacheDef x j (r' ++ [p1]) (hvDelete x p1 (j + 1) S) M1 := by
          refine hcd.mono (HvMono.of_eq a1 v1) ?_
          intro i h3 hi
          rw [hbd, if_pos (by omega)]
          exact min_le_left _ _
        intro i h3 hi q hq
        exact this i h3 hi q (List.mem_append_left _ hq)
    · rw [if_neg hcond, if_neg hcond]
      refine ⟨r', p1, s, S, M, by rw [hlen'], by rw [hlen'], hl', hlnk, h, ha, hv, hbi, hcd, ?_⟩
      intro q hq
      have hm : m + 1 > 1 := by
        have := List.length_pos_of_mem hq
        omega
      have hx : ¬ x (S.prev (j + 1) p1) (j + 1) ≥ S.bound (j + 1) := fun hh => hcond ⟨hm, Or.inr hh⟩
      rw [hprev, hb] at hx
      have hlast := hlastB hm
      refine lt_of_le_of_lt ?_ (not_le.1 hx)
      rcases List.eq_nil_or_concat r' with rfl | ⟨r2, p2, rfl⟩
      · simp at hq
      · rw [List.concat_eq_append] at *
        rw [lastD_append_singleton] at *
        rcases List.mem_append.1 hq with hq | hq
        · have hpw := hc.sorted
          rw [hl'] at hpw
          have := (List.pairwise_append.1 (List.pairwise_append.1 hpw).1).2.2 q hq p2 (by simp)
          have b1 := hlb q (by rw [hl']; simp [hq])
          have b2 := hlb p2 (by rw [hl']; simp)
          exact hsort _ hjd q p2 b1.1 b1.2 b2.1 b2.2 this
        · simp at hq; rw [hq]

theorem memAreaInit_safe {M : HvMem ℝ} {S : HvState ℝ} (h : HvAgree n d M S) {p : ℕ} (hp1 : 1 ≤ p) (hp : p ≤ n) : ∀ m, m < d →
    ∃ M', memAreaInit x ref n d p m M = some M' ∧ HvAgree n d M' (hvAreaInit x ref p m S) ∧ HvMono M M' ∧ (M'.area m p).isSome
  | 0, hm => by
    obtain ⟨M1, e1, h1, a1, v1⟩ := h.setArea hm hp 1
    exact ⟨M1, e1, h1, HvMono.of_area a1 v1, by rw [a1]; exact isSome_upd2_same⟩
  | m + 1, hm => by
    obtain ⟨M1, e1, h1, m1, s1⟩ := memAreaInit_safe h hp1 hp m (by omega)
    obtain ⟨M2, e2, h2, a2, v2⟩ := h1.setArea hm hp ((hvAreaInit x ref p m S).area m p * (ref m - x p m))
    refine ⟨M2, ?_, h2, m1.trans (HvMono.of_area a2 v2), by rw [a2]; exact isSome_upd2_same⟩
    unfold memAreaInit
    simp only [e1, Option.bind_eq_bind, Option.bind_some, h1.areaSome s1, rdRef_some (ref := ref) (show m < d by omega),
      rdData_some (x := x) hp1 hp (show m < d by omega)]
    exact e2

theorem memMainLoop_safe {recM : ℕ → HvMem ℝ → Option (ℝ × HvMem ℝ)} {rec : ℕ → HvState ℝ → ℝ × HvState ℝ}
    (hrec : SafeRec x pos n d j recM rec) (hjd : j + 1 < d) (hc : LvlLinks pos n j l S0) (hlb : ∀ p ∈ l, 1 ≤ p ∧ p ≤ n) :
    ∀ (s r' : List ℕ) (p1 fuel c : ℕ) (hyperv : ℝ) (S : HvState ℝ) (M : HvMem ℝ), l = r' ++ p1 :: s → s.length ≤ fuel → c = r'.length + 1 →
      links S = delLinks (j + 1) (links S0) s → HvAgree n d M S → CacheDef x j (r' ++ [p1]) S M →
      (∀ q ∈ r' ++ [p1], (M.area (j + 1) q).isSome ∧ (M.vol (j + 1) q).isSome) →
      ∃ M', memMainLoop recM x n d (j + 1) fuel c (s.headD 0) p1 hyperv M =
          some ((hvMainLoop rec x (j + 1) fuel c (s.headD 0) p1 hyperv S).1, (hvMainLoop rec x (j + 1) fuel c (s.headD 0) p1 hyperv S).2.1, M') ∧
        HvAgree n d M' (hvMainLoop rec x (j + 1) fuel c (s.headD 0) p1 hyperv S).2.2 ∧
        links (hvMainLoop rec x (j + 1) fuel c (s.headD 0) p1 hyperv S).2.2 = links S0 ∧ HvMono M M' ∧
        CacheDef x j l (hvMainLoop rec x (j + 1) fuel c (s.headD 0) p1 hyperv S).2.2 M' ∧
        (∀ q ∈ l, (M'.area (j + 1) q).isSome ∧ (M'.vol (j + 1) q).isSome) ∧
        (hvMainLoop rec x (j + 1) fuel c (s.headD 0) p1 hyperv S).2.1 ∈ l ∧
        ∀ i, j + 1 < i → (hvMainLoop rec x (j + 1) fuel c (s.headD 0) p1 hyperv S).2.2.bound i = S.bound i := by
  intro s
  induction s with
  | nil =>
    intro r' p1 fuel c hyperv S M hl hf hcl hlnk h hcd hdef
    cases fuel with
    | zero =>
      unfold memMainLoop hvMainLoop
      rw [if_pos (by rfl)]
      exact ⟨M, rfl, h, hlnk, HvMono.rfl' M, hl ▸ hcd, hl ▸ hdef, by rw [hl]; simp, fun _ _ => rfl⟩
    | succ f =>
      unfold memMainLoop hvMainLoop
      rw [if_pos (by rfl), if_pos (by rfl)]
      exact ⟨M, rfl, h, hlnk, HvMono.rfl' M, hl ▸ hcd, hl ▸ hdef, by rw [hl]; simp, fun _ _ => rfl⟩
  | cons p0 s ih =>
    intro r' p1 fuel c hyperv S M hl hf hcl hlnk h hcd hdef
    obtain ⟨f, rfl⟩ : ∃ f, fuel = f + 1 := ⟨fuel - 1, by simp at hf; omega⟩
    have hj2 := hc.j2
    have hnd := pairwise_pos_nodup hc.sorted
    have hl' : l = (r' ++ [p1]) ++ p0 :: s := by rw [hl]; simp
    have hl'' : l = (r' ++ [p1] ++ [p0]) ++ s := by rw [hl]; simp
    have hb0 := hlb p0 (by rw [hl]; simp)
    have hb1 := hlb p1 (by rw [hl]; simp)
    have hp0 : ¬ p0 = 0 := by omega
    have hA1 := (hdef p1 (by simp)).1
    unfold memMainLoop hvMainLoop
    rw [if_neg (show ¬ (p0 :: s).headD 0 = 0 from hp0), if_neg (show ¬ (p0 :: s).headD 0 = 0 from hp0)]
    dsimp only [List.headD_cons]
    obtain ⟨M1, e1, h1, a1, v1⟩ := h.setBound hjd (x p0 (j + 1))
    set S1 : HvState ℝ := { S with bound := upd S.bound (j + 1) (x p0 (j + 1)) } with hS1
    obtain ⟨M2, e2, h2, a2, v2⟩ := memReinsertLoop_agree (x := x) h1 hb0.1 hb0.2 (j + 1 - 2) (by omega)
    have h2' : HvAgree n d M2 (hvReinsert x p0 (j + 1) S1) := h2
    obtain ⟨-, -, -, hbd⟩ := hvReinsert_rest (x := x) p0 (j + 1) (by omega) S1
    set S2 := hvReinsert x p0 (j + 1) S1 with hS2
    have hlnk2 : links S2 = delLinks (j + 1) (links S0) s := by
      rw [hS2, links_hvReinsert p0 (j + 1) (by omega)]
      have : links S1 = links S := rfl
      rw [this, hlnk]
      exact relink_delLinks (j + 1) (links S0) p0 s (r' ++ [p1]) (hl' ▸ hnd) (hl' ▸ hc.zero) (fun i h2 hi => hl' ▸ hc.lists i h2 hi)
    have hat := LinkedFrom.at (hl' ▸ hc.link : Linked _ _ ((r' ++ [p1]) ++ p0 :: s))
    have hnext : S2.next (j + 1) p0 = s.headD 0 := by
      have hh := delLinks_of_not (j + 1) (links S0) s (j + 1) (by omega)
      have h2 : S2.next = (delLinks (j + 1) (links S0) s).1 := congrArg Prod.fst hlnk2
      rw [h2, hh.1]; exact hat.2.2.1
    have hprev : S2.prev (j + 1) p0 = p1 := by
      have hh := delLinks_of_not (j + 1) (links S0) s (j + 1) (by omega)
      have h2 : S2.prev = (delLinks (j + 1) (links S0) s).2 := congrArg Prod.snd hlnk2
      rw [h2, hh.2]
      have := hat.1
      rw [lastD_append_singleton] at this
      exact this
    set V := hyperv + S.area (j + 1) p1 * (x p0 (j + 1) - x p1 (j + 1)) with hV
    obtain ⟨M3, e3, h3, a3, v3⟩ := h2'.setVol hjd hb0.2 V
    set S3 : HvState ℝ := { S2 with vol := upd2 S2.vol (j + 1) p0 V } with hS3
    have hm3 : HvMono M M3 := (HvMono.of_eq a1 v1).trans ((HvMono.of_eq a2 v2).trans (HvMono.of_vol a3 v3))
    have hlists := hc.hvLists (S := S3) hl'' (by simp) hlnk2
    have hbnd3 : ∀ i, 2 ≤ i → i ≤ j → S3.bound i = min (S.bound i) (x p0 i) := by
      intro i h2 hi
      show S2.bound i = _
      rw [hbd, if_pos (by omega)]
      show min (upd S.bound (j + 1) (x p0 (j + 1)) i) _ = _
      rw [upd_ne _ _ (by omega)]
    have hcd3 : CacheDef x j (r' ++ [p1] ++ [p0]) S3 M3 := by
      intro i h3' hi q hq hlt
      rw [hbnd3 i (by omega) hi] at hlt
      rcases List.mem_append.1 hq with hq | hq
      · have := hcd i h3' hi q hq (lt_of_lt_of_le hlt (min_le_left _ _))
        exact ⟨hm3.1 _ _ this.1, hm3.2 _ _ this.2⟩
      · simp at hq
        rw [hq] at hlt
        exact absurd (lt_of_lt_of_le hlt (min_le_right _ _)) (lt_irrefl _)
    have hpa : (M3.area (j + 1) (S3.prev (j + 1) p0)).isSome := by
      have : S3.prev (j + 1) p0 = p1 := hprev
      rw [this]; exact hm3.1 _ _ hA1
    obtain ⟨M4, e4, h4, l4, m4, c4, b4, d4⟩ := memSkip_safe hrec hjd hlists
      (fun p hp => (hlb p (by rw [hl'']; exact List.mem_append_left _ hp)).2) h3 hcd3 hb0.2 hpa
    have hlen : c + 1 = (r' ++ [p1] ++ [p0]).length := by rw [hcl]; simp
    rw [hlen, hnext]
    have hdef4 : ∀ q ∈ (r' ++ [p1]) ++ [p0], (M4.area (j + 1) q).isSome ∧ (M4.vol (j + 1) q).isSome := by
      intro q hq
      rcases List.mem_append.1 hq with hq | hq
      · have := hdef q hq
        exact ⟨m4.1 _ _ (hm3.1 _ _ this.1), m4.2 _ _ (hm3.2 _ _ this.2)⟩
      · simp at hq
        rw [hq]
        refine ⟨d4, m4.2 _ _ ?_⟩
        rw [v3]; exact isSome_upd2_same
    obtain ⟨M5, e5, h5, l5, m5, c5, d5, p5, b5⟩ := ih (r' ++ [p1]) p0 f (r' ++ [p1] ++ [p0]).length V _ M4 hl'
      (by simp at hf; omega) (by simp) (l4.trans hlnk2) h4 c4 hdef4
    refine ⟨M5, ?_, h5, l5, hm3.trans (m4.trans m5), c5, d5, p5, ?_⟩
    · simp only [h.areaSome hA1, rdData_some (x := x) hb0.1 hb0.2 hjd, rdData_some (x := x) hb1.1 hb1.2 hjd, Option.bind_eq_bind,
        Option.bind_some, e1, e2, h2'.next _ hjd p0 hb0.2, hnext]
      rw [e3]
      simp only [Option.bind_some]
      rw [e4]
      exact e5
    · intro i hi
      rw [b5 i hi, b4 i (by omega)]
      show S2.bound i = _
      rw [hbd, if_neg (by omega)]
      exact upd_ne _ _ (by omega)

/-- One level of the recursion makes only valid accesses if the next lower one does. -/
theorem memLevel_safe {recM : ℕ → HvMem ℝ → Option (ℝ × HvMem ℝ)} {rec : ℕ → HvState ℝ → ℝ × HvState ℝ}
    (hrec : SafeRec x pos n d j recM rec) (hj2 : 2 ≤ j) (hjd : j + 1 < d)
    (hsort : ∀ i < d, ∀ p q, 1 ≤ p → p ≤ n → 1 ≤ q → q ≤ n → pos i p < pos i q → x p i ≤ x q i) :
    SafeRec x pos n d (j + 1) (memLevel recM x ref n d (j + 1)) (hvLevel rec x ref (j + 1)) := by
  intro A S M hA hAn h hcd
  obtain ⟨l, hmem, hsorted, hlink⟩ := hA.lists (j + 1) (by omega) (le_refl _)
  have hlen : l.length = A.length := length_eq_of_mem_iff (pairwise_pos_nodup hsorted) hA.nodup hmem
  have hlen2 := hA.len
  have hlne : l ≠ [] := by
    rintro rfl
    exact hA.ne (List.length_eq_zero_iff.1 hlen.symm)
  have h0 : 0 ∉ l := fun hz => hA.zero ((hmem 0).1 hz)
  have hlb : ∀ p ∈ l, 1 ≤ p ∧ p ≤ n := by
    intro p hp
    refine ⟨?_, hAn p ((hmem p).1 hp)⟩
    rcases Nat.eq_zero_or_pos p with h | h
    · exact absurd (h ▸ hp) h0
    · exact h
  have hc : LvlLinks pos n j l S :=
    { j2 := hj2, sorted := hsorted, zero := h0, len := by omega, link := hlink
      lists := by
        intro i h2 hi
        obtain ⟨m, hm1, hm2, hm3⟩ := hA.lists i h2 (by omega)
        exact ⟨m, fun p => (hm1 p).trans (hmem p).symm, hm2, hm3⟩ }
  have hp0 : S.prev (j + 1) 0 = lastD 0 l := LinkedFrom.last hlink
  have hreset := hvReset_spec (j + 1) l [] A.length S (by rw [List.append_nil]; exact hlink) h0 (pairwise_pos_nodup hsorted) (by omega) rfl
  obtain ⟨M1, e1, h1, a1, v1⟩ := memReset_safe hjd l [] A.length S M (by rw [List.append_nil]; exact hlink) hlb (by omega) h
  rw [hreset] at h1
  set S1 : HvState ℝ := { S with ignore := fun p => if p ∈ l ∧ S.ignore p < j + 1 then 0 else S.ignore p } with hS1
  have hcd1 : CacheDef x (j + 1) l S1 M1 := by
    intro i h3 hi q hq hlt
    have := hcd i h3 hi q ((hmem q).1 hq) hlt
    rw [a1, v1]; exact this
  obtain ⟨r', p1, s', S2, M2, g1, e2, g2, g3, h2, a2, v2, b2, c2, x2⟩ := memDelLoop_safe hjd hsort hc hlb M1 (S1.bound (j + 1)) A.length l [] S1 M1
    hlen hlne (by rw [List.append_nil]) rfl h1 rfl rfl rfl (fun _ _ => rfl) (fun i h3 hi q hq => hcd1 i h3 (by omega) q hq)
  rw [List.headD_nil] at g1 e2
  have hdefR : ∀ q ∈ r', (M2.area (j + 1) q).isSome ∧ (M2.vol (j + 1) q).isSome := by
    intro q hq
    rw [a2, v2]
    exact hcd1 (j + 1) (by omega) (le_refl _) q (by rw [g2]; exact List.mem_append_left _ hq) (x2 q hq)
  have hb1 := hlb p1 (by rw [g2]; simp)
  have hlistsR : ∀ S3 : HvState ℝ, links S3 = links S2 → HvLists pos n j (r' ++ [p1]) S3 := fun S3 h3 =>
    hc.hvLists (s := s') (by rw [g2]; simp) (by simp) (h3.trans g3)
  have hlenR : r'.length + 1 = (r' ++ [p1]).length := by simp
  have hprev : S2.prev (j + 1) p1 = lastD 0 r' := by
    have hh := delLinks_of_not (j + 1) (links S) s' (j + 1) (by omega)
    have h2 : S2.prev = (delLinks (j + 1) (links S) s').2 := congrArg Prod.snd g3
    have hat := LinkedFrom.at (g2 ▸ hlink : Linked _ _ (r' ++ p1 :: s'))
    rw [h2, hh.2]; exact hat.1
  have hRn : ∀ p ∈ r' ++ [p1], p ≤ n := by
    intro p hp
    refine (hlb p ?_).2
    rw [g2]
    rcases List.mem_append.1 hp with hp | hp
    · exact List.mem_append_left _ hp
    · simp at hp; rw [hp]; simp
  have hmono2 : HvMono M M2 := HvMono.of_eq (a2.trans a1) (v2.trans v1)
  -- the rest of the level, from the state with `vol` of `p1` set
  have tail : ∀ (V : ℝ) (S3 : HvState ℝ) (M3 : HvMem ℝ), links S3 = links S2 → S3.bound = S2.bound → HvAgree n d M3 S3 → HvMono M2 M3 →
      (M3.vol (j + 1) p1).isSome → memStart x ref n d (j + 1) (r'.length + 1) p1 M2 = some (V, M3) →
      (∃ M', memLevel recM x ref n d (j + 1) A.length M =
        some ((hvMainLoop rec x (j + 1) A.length (r'.length + 1) (s'.headD 0) p1 V (skipOrRecurse rec (j + 1) (r'.length + 1) p1 S3)).1 +
          (hvMainLoop rec x (j + 1) A.length (r'.length + 1) (s'.headD 0) p1 V (skipOrRecurse rec (j + 1) (r'.length + 1) p1 S3)).2.2.area (j + 1)
            (hvMainLoop rec x (j + 1) A.length (r'.length + 1) (s'.headD 0) p1 V (skipOrRecurse rec (j + 1) (r'.length + 1) p1 S3)).2.1 *
          (ref (j + 1) - x (hvMainLoop rec x (j + 1) A.length (r'.length + 1) (s'.headD 0) p1 V
            (skipOrRecurse rec (j + 1) (r'.length + 1) p1 S3)).2.1 (j + 1)), M') ∧
        HvAgree n d M' (hvMainLoop rec x (j + 1) A.length (r'.length + 1) (s'.headD 0) p1 V (skipOrRecurse rec (j + 1) (r'.length + 1) p1 S3)).2.2 ∧
        links (hvMainLoop rec x (j + 1) A.length (r'.length + 1) (s'.headD 0) p1 V (skipOrRecurse rec (j + 1) (r'.length + 1) p1 S3)).2.2 = links S ∧
        HvMono M M' ∧
        CacheDef x (j + 1) A (hvMainLoop rec x (j + 1) A.length (r'.length + 1) (s'.headD 0) p1 V
          (skipOrRecurse rec (j + 1) (r'.length + 1) p1 S3)).2.2 M' ∧
        ∀ i, j + 1 < i → (hvMainLoop rec x (j + 1) A.length (r'.length + 1) (s'.headD 0) p1 V
          (skipOrRecurse rec (j + 1) (r'.length + 1) p1 S3)).2.2.bound i = S.bound i) := by
    intro V S3 M3 hl3 hb3 h3 m3 hvol3 hstart
    have hcd3 : CacheDef x j (r' ++ [p1]) S3 M3 := c2.mono m3 (fun i _ _ => by rw [hb3])
    have hpa : (M3.area (j + 1) (S3.prev (j + 1) p1)).isSome := by
      have : S3.prev = S2.prev := congrArg Prod.snd hl3
      rw [this, hprev]
      rcases List.mem_cons.1 (lastD_mem 0 r') with hz | hz
      · rw [hz]; exact h3.head _ hjd
      · exact m3.1 _ _ (hdefR _ hz).1
    obtain ⟨M4, e4, h4, l4, m4, c4, b4, d4⟩ := memSkip_safe hrec hjd (hlistsR S3 hl3) hRn h3 hcd3 hb1.2 hpa
    rw [← hlenR] at e4 h4 l4 c4 b4
    have hdef4 : ∀ q ∈ r' ++ [p1], (M4.area (j + 1) q).isSome ∧ (M4.vol (j + 1) q).isSome := by
      intro q hq
      rcases List.mem_append.1 hq with hq | hq
      · have := hdefR q hq
        exact ⟨m4.1 _ _ (m3.1 _ _ this.1), m4.2 _ _ (m3.2 _ _ this.2)⟩
      · simp at hq
        rw [hq]
        exact ⟨d4, m4.2 _ _ hvol3⟩
    obtain ⟨M5, e5, h5, l5, m5, c5, d5, p5, b5⟩ := memMainLoop_safe hrec hjd hc hlb s' r' p1 A.length (r'.length + 1) V _ M4 g2
      (by rw [← hlen, g2]; simp; omega) rfl (l4.trans (hl3.trans g3)) h4 c4 hdef4
    have hbp := hlb _ p5
    refine ⟨M5, ?_, h5, l5, hmono2.trans (m3.trans (m4.trans m5)), ?_, ?_⟩
    · unfold memLevel
      simp only [h.prev _ hjd 0 (by omega), Option.bind_eq_bind, Option.bind_some, hp0, e1, e2, hstart, e4, e5, h5.areaSome (d5 _ p5).1,
        rdRef_some (ref := ref) hjd, rdData_some (x := x) hbp.1 hbp.2 hjd]
    · intro i h3' hi q hq hlt
      rcases Nat.lt_or_ge i (j + 1) with hij | hij
      · exact c5 i h3' (by omega) q ((hmem q).2 hq) hlt
      · have : i = j + 1 := by omega
        subst this
        exact d5 q ((hmem q).2 hq)
    · intro i hi
      rw [b5 i hi, b4 i (by omega), hb3, b2 i hi]
  unfold hvLevel
  dsimp only
  rw [hp0, hreset]
  have e1' : S1.prev (j + 1) 0 = lastD 0 l := hp0
  rw [e1', g1]
  dsimp only
  by_cases hcc : r'.length + 1 > 1
  · simp only [if_pos hcc]
    have hq : lastD 0 r' ∈ r' := by
      rcases List.eq_nil_or_concat r' with rfl | ⟨r2, p2, rfl⟩
      · simp at hcc
      · rw [List.concat_eq_append, lastD_append_singleton]; simp
    have hqb := hlb _ (show lastD 0 r' ∈ l by rw [g2]; exact List.mem_append_left _ hq)
    obtain ⟨M3, e3, h3, a3, v3⟩ := h2.setVol hjd hb1.2 (S2.vol (j + 1) (S2.prev (j + 1) p1) +
      S2.area (j + 1) (S2.prev (j + 1) p1) * (x p1 (j + 1) - x (S2.prev (j + 1) p1) (j + 1)))
    refine tail _ { S2 with vol := upd2 S2.vol (j + 1) p1 _ } M3 rfl rfl h3 (HvMono.of_vol a3 v3) (by rw [v3]; exact isSome_upd2_same) ?_
    unfold memStart
    rw [if_pos hcc]
    rw [hprev] at e3 ⊢
    simp only [h2.prev _ hjd p1 hb1.2, Option.bind_eq_bind, Option.bind_some, hprev, h2.volSome (hdefR _ hq).2, h2.areaSome (hdefR _ hq).1,
      rdData_some (x := x) hb1.1 hb1.2 hjd, rdData_some (x := x) hqb.1 hqb.2 hjd, e3]
  · simp only [if_neg hcc]
    obtain ⟨Ma, ea, ha, ma, -⟩ := memAreaInit_safe (x := x) (ref := ref) h2 hb1.1 hb1.2 (j + 1) hjd
    obtain ⟨M3, e3, h3, a3, v3⟩ := ha.setVol hjd hb1.2 0
    have hl3 : links (hvAreaInit x ref p1 (j + 1) S2) = links S2 := links_hvAreaInit (x := x) (ref := ref) p1 (j + 1) S2
    have hb3 : (hvAreaInit x ref p1 (j + 1) S2).bound = S2.bound := by
      obtain ⟨⟨ar, hh⟩, -⟩ := hvAreaInit_rest (x := x) (ref := ref) p1 (j + 1) S2
      rw [hh]
    refine tail _ { hvAreaInit x ref p1 (j + 1) S2 with vol := upd2 (hvAreaInit x ref p1 (j + 1) S2).vol (j + 1) p1 0 } M3 hl3 hb3 h3
      (ma.trans (HvMono.of_vol a3 v3)) (by rw [v3]; exact isSome_upd2_same) ?_
    unfold memStart
    rw [if_neg hcc]
    simp only [ea, Option.bind_eq_bind, Option.bind_some, e3]

theorem memRec_safe (hd : 3 ≤ d) (hsort : ∀ i < d, ∀ p q, 1 ≤ p → p ≤ n → 1 ≤ q → q ≤ n → pos i p < pos i q → x p i ≤ x q i) :
    ∀ k, k + 2 < d → SafeRec x pos n d (k + 2) (memRec x ref n d k) (hvRec x ref k)
  | 0, _ => memHv3dRef_safe hd
  | k + 1, hk => memLevel_safe (memRec_safe hd hsort k (by omega)) (by omega) (by omega) hsort

end Moo
