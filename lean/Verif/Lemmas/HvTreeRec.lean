import Verif.Lemmas.HvTree
import Verif.Lemmas.HvSetup

/-!
# The whole computation on the nodes of the tree
-/

set_option autoImplicit false
set_option linter.unusedSectionVars false

namespace Moo

section
variable {K : Type*} [CommRing K] [LinearOrder K]

/-- c/hv.c:941-1002 on the nodes of the tree and on the list of its items. -/
theorem hv3dTreeLoop_spec (tf : ℕ) (x : ℕ → ℕ → K) (ref : ℕ → K) {l : List ℕ} {nx pv : ℕ → ℕ} (hl : l.Nodup) (h0 : 0 ∉ l)
    (hlink : Linked nx pv l) (hlen : l.length < 2 ^ 125) (htf : l.length < tf) :
    ∀ (s P : List ℕ) (pp fuel : ℕ) (T : List ℕ) (hypera hyperv : K) (S : HvState K) (h : AvlHeap), l = P ++ pp :: s →
      s.length + 1 ≤ fuel → S.next 2 = nx → AvlInv h T → T.Pairwise (HvLex x) → T ≠ [] → (∀ t ∈ T, t ∈ P) → T.length ≤ P.length →
      ∃ h', hv3dTreeLoop tf x ref fuel pp hypera hyperv { S with tree := h } =
          ((hv3dLoop x ref fuel pp T hypera hyperv S).1, { (hv3dLoop x ref fuel pp T hypera hyperv S).2 with tree := h' }) ∧ AvlInv h' [] := by
  have hclear : ∀ h : AvlHeap, AvlInv (avlClearTree h) [] := fun h => ⟨.nil, rfl, trivial, rfl, ⟨rfl, rfl, trivial⟩, List.nodup_nil⟩
  intro s
  induction s with
  | nil =>
    intro P pp fuel T hypera hyperv S h hlP hfuel hnx hi hs hne hTP hTlen
    obtain ⟨fuel, rfl⟩ : ∃ f, fuel = f + 1 := ⟨fuel - 1, by simp at hfuel; omega⟩
    have hppl : pp ∈ l := by rw [hlP]; simp
    have hpp0 : pp ≠ 0 := fun e => h0 (e ▸ hppl)
    have hppP : pp ∉ P := fun hp => (List.nodup_append.1 (hlP ▸ hl)).2.2 pp hp pp (by simp) rfl
    have hPlen : P.length + 1 = l.length := by rw [hlP]; simp
    have hnxt : nx pp = 0 := (LinkedFrom.at (hlP ▸ hlink : Linked nx pv (P ++ pp :: []))).2.2.1
    unfold hv3dTreeLoop hv3dLoop
    dsimp only
    rw [hnx, hnxt, if_pos rfl, if_pos rfl]
    by_cases hig : S.ignore pp ≥ 2
    · simp only [if_pos hig]
      exact ⟨_, rfl, hclear _⟩
    · simp only [if_neg hig]
      have hup := hv3dTreeUpdate_spec tf x ref h T pp hypera hi hs hne (fun hm => hppP (hTP pp hm)) hpp0 (by omega) (by omega)
      cases hu : hv3dUpdate x ref T pp hypera with
      | none =>
        cases hv : hv3dTreeUpdate tf x ref h pp hypera with
        | none => exact ⟨_, rfl, hclear _⟩
        | some r => rw [hu, hv] at hup; exact absurd hup (by simp [HvTreeSim])
      | some r =>
        cases hv : hv3dTreeUpdate tf x ref h pp hypera with
        | none => rw [hu, hv] at hup; exact absurd hup (by simp [HvTreeSim])
        | some r' =>
          rw [hu, hv] at hup
          obtain ⟨e, -⟩ := hup
          dsimp only
          rw [e]
          exact ⟨_, rfl, hclear _⟩
  | cons nxt s ih =>
    intro P pp fuel T hypera hyperv S h hlP hfuel hnx hi hs hne hTP hTlen
    obtain ⟨fuel, rfl⟩ : ∃ f, fuel = f + 1 := ⟨fuel - 1, by simp at hfuel; omega⟩
    have hppl : pp ∈ l := by rw [hlP]; simp
    have hnl : nxt ∈ l := by rw [hlP]; simp
    have hn0 : nxt ≠ 0 := fun e => h0 (e ▸ hnl)
    have hpp0 : pp ≠ 0 := fun e => h0 (e ▸ hppl)
    have hppP : pp ∉ P := fun hp => (List.nodup_append.1 (hlP ▸ hl)).2.2 pp hp pp (by simp) rfl
    have hPlen : P.length + 1 ≤ l.length := by rw [hlP]; simp
    have hnxt : nx pp = nxt := (LinkedFrom.at (hlP ▸ hlink : Linked nx pv (P ++ pp :: nxt :: s))).2.2.1
    have hlP' : l = (P ++ [pp]) ++ nxt :: s := by rw [hlP]; simp
    have hfuel' : s.length + 1 ≤ fuel := by simp at hfuel; omega
    have hTP' : ∀ t ∈ T, t ∈ P ++ [pp] := fun t ht => List.mem_append_left _ (hTP t ht)
    have hTlen' : T.length ≤ (P ++ [pp]).length := by simp; omega
    unfold hv3dTreeLoop hv3dLoop
    dsimp only
    rw [hnx, hnxt, if_neg hn0, if_neg hn0]
    by_cases hig : S.ignore pp ≥ 2
    · simp only [if_pos hig]
      exact ih (P ++ [pp]) nxt fuel T _ _ S h hlP' hfuel' hnx hi hs hne hTP' hTlen'
    · simp only [if_neg hig]
      have hup := hv3dTreeUpdate_spec tf x ref h T pp hypera hi hs hne (fun hm => hppP (hTP pp hm)) hpp0 (by omega) (by omega)
      cases hu : hv3dUpdate x ref T pp hypera with
      | none =>
        cases hv : hv3dTreeUpdate tf x ref h pp hypera with
        | none => exact ih (P ++ [pp]) nxt fuel T _ _ { S with ignore := upd S.ignore pp 2 } h hlP' hfuel' hnx hi hs hne hTP' hTlen'
        | some r => rw [hu, hv] at hup; exact absurd hup (by simp [HvTreeSim])
      | some r =>
        cases hv : hv3dTreeUpdate tf x ref h pp hypera with
        | none => rw [hu, hv] at hup; exact absurd hup (by simp [HvTreeSim])
        | some r' =>
          rw [hu, hv] at hup
          obtain ⟨e, g1, g2, g3, g4, g5⟩ := hup
          dsimp only
          rw [e]
          refine ih (P ++ [pp]) nxt fuel r.1 _ _ S r'.1 hlP' hfuel' hnx g1 g2 g3 ?_ (by simp; omega)
          intro t ht
          rcases g4 t ht with rfl | h
          · simp
          · exact hTP' t h

/-- c/hv.c:924-1003 on the nodes of the tree and on the list of its items. -/
theorem hv3dTreeRef_eq (tf : ℕ) (x : ℕ → ℕ → K) (ref : ℕ → K) {l : List ℕ} (hl : l.Nodup) (h0 : 0 ∉ l) (hlne : l ≠ []) (S : HvState K) (h : AvlHeap)
    (hlink : Linked (S.next 2) (S.prev 2) l) (hlen : l.length < 2 ^ 125) (htf : l.length < tf) :
    ∃ h', hv3dTreeRef tf x ref l.length { S with tree := h } = ((hv3dRef x ref l.length S).1, { (hv3dRef x ref l.length S).2 with tree := h' }) ∧
      (AvlInv h [] → AvlInv h' []) := by
  cases l with
  | nil => exact absurd rfl hlne
  | cons pp s =>
    have hat := LinkedFrom.at (l1 := []) hlink
    have hpp : S.next 2 0 = pp := hat.2.1
    have hpp0 : pp ≠ 0 := fun e => h0 (by simp [e])
    cases s with
    | nil =>
      have hnx : S.next 2 pp = 0 := hat.2.2.1
      refine ⟨h, ?_, id⟩
      unfold hv3dTreeRef hv3dRef
      simp only [hpp, hnx, if_true]
    | cons nxt s =>
      have hnx : S.next 2 pp = nxt := hat.2.2.1
      have hn0 : nxt ≠ 0 := fun he => h0 (by rw [← he]; simp)
      unfold hv3dTreeRef hv3dRef
      simp only [hpp, hnx, if_neg hn0]
      obtain ⟨h', e, hi⟩ := hv3dTreeLoop_spec tf x ref hl h0 hlink hlen htf s [pp] nxt (pp :: nxt :: s).length [pp]
        ((ref 0 - x pp 0) * (ref 1 - x pp 1))
        ((ref 0 - x pp 0) * (ref 1 - x pp 1) * (if (pp :: nxt :: s).length = 1 then ref 2 - x pp 2 else x nxt 2 - x pp 2)) S
        (avlInsertTop h pp) rfl (by simp) rfl (insertTop_spec _ pp hpp0) (List.pairwise_singleton ..) (by simp) (fun t ht => ht) (le_refl _)
      exact ⟨h', e, fun _ => hi⟩

end

variable {x : ℕ → ℕ → ℝ} {ref : ℕ → ℝ} {pos : ℕ → ℕ → ℕ} {d : ℕ} {N : List ℕ}

/-! ### The levels of the recursion: the tree does not matter -/

/-- The memory with another tree. -/
def HvState.setTree (S : HvState ℝ) (h : AvlHeap) : HvState ℝ := { S with tree := h }

section commute
variable (h : AvlHeap)

theorem hvReset_setTree (dim : ℕ) : ∀ (fuel pp : ℕ) (S : HvState ℝ), hvReset dim fuel pp (S.setTree h) = (hvReset dim fuel pp S).setTree h
  | 0, _, _ => rfl
  | fuel + 1, pp, S => by
    unfold hvReset
    by_cases hp : pp = 0
    · rw [if_pos hp, if_pos hp]
    · rw [if_neg hp, if_neg hp]
      dsimp only
      by_cases hi : S.ignore pp < dim
      · have e1 : (if (S.setTree h).ignore pp < dim then ({ S.setTree h with ignore := upd (S.setTree h).ignore pp 0 } : HvState ℝ) else S.setTree h) =
            (({ S with ignore := upd S.ignore pp 0 } : HvState ℝ)).setTree h := if_pos hi
        rw [e1, if_pos hi]
        exact hvReset_setTree dim fuel _ _
      · have e1 : (if (S.setTree h).ignore pp < dim then ({ S.setTree h with ignore := upd (S.setTree h).ignore pp 0 } : HvState ℝ) else S.setTree h) =
            S.setTree h := if_neg hi
        rw [e1, if_neg hi]
        exact hvReset_setTree dim fuel _ _

theorem hvDeleteStep_setTree (p i : ℕ) (S : HvState ℝ) : hvDeleteStep x p i (S.setTree h) = (hvDeleteStep x p i S).setTree h := by
  unfold hvDeleteStep
  dsimp only
  by_cases hb : S.bound i > x p i
  · rw [if_pos hb]; exact if_pos hb
  · rw [if_neg hb]; exact if_neg hb

theorem hvDeleteLoop_setTree (p : ℕ) (S : HvState ℝ) : ∀ m, hvDeleteLoop x p m (S.setTree h) = (hvDeleteLoop x p m S).setTree h
  | 0 => rfl
  | m + 1 => by rw [hvDeleteLoop, hvDeleteLoop_setTree p S m, hvDeleteStep_setTree]; rfl

theorem hvReinsertStep_setTree (p i : ℕ) (S : HvState ℝ) : hvReinsertStep x p i (S.setTree h) = (hvReinsertStep x p i S).setTree h := by
  unfold hvReinsertStep
  dsimp only
  by_cases hb : S.bound i > x p i
  · rw [if_pos hb]; exact if_pos hb
  · rw [if_neg hb]; exact if_neg hb

theorem hvReinsertLoop_setTree (p : ℕ) (S : HvState ℝ) : ∀ m, hvReinsertLoop x p m (S.setTree h) = (hvReinsertLoop x p m S).setTree h
  | 0 => rfl
  | m + 1 => by rw [hvReinsertLoop, hvReinsertLoop_setTree p S m, hvReinsertStep_setTree]; rfl

theorem hvAreaInit_setTree (p1 : ℕ) (S : HvState ℝ) : ∀ m, hvAreaInit x ref p1 m (S.setTree h) = (hvAreaInit x ref p1 m S).setTree h
  | 0 => rfl
  | m + 1 => by
    unfold hvAreaInit
    dsimp only
    rw [hvAreaInit_setTree p1 S m]; rfl

theorem hvDelLoop_setTree (dim : ℕ) : ∀ (c p0 p1 : ℕ) (S : HvState ℝ), hvDelLoop x dim c p0 p1 (S.setTree h) =
    ((hvDelLoop x dim c p0 p1 S).1, (hvDelLoop x dim c p0 p1 S).2.1, (hvDelLoop x dim c p0 p1 S).2.2.1, (hvDelLoop x dim c p0 p1 S).2.2.2.setTree h)
  | 0, _, _, _ => rfl
  | c + 1, p0, p1, S => by
    unfold hvDelLoop
    dsimp only
    by_cases hc : c + 1 > 1 ∧ (x p1 dim > S.bound dim ∨ x (S.prev dim p1) dim ≥ S.bound dim)
    · rw [if_pos hc, if_pos (show c + 1 > 1 ∧ (x p1 dim > (S.setTree h).bound dim ∨ x ((S.setTree h).prev dim p1) dim ≥ (S.setTree h).bound dim) from hc)]
      have e : hvDelete x p1 dim (S.setTree h) = (hvDelete x p1 dim S).setTree h := hvDeleteLoop_setTree h p1 S _
      rw [e]
      exact hvDelLoop_setTree dim c p1 _ _
    · rw [if_neg hc, if_neg (show ¬ (c + 1 > 1 ∧ (x p1 dim > (S.setTree h).bound dim ∨ x ((S.setTree h).prev dim p1) dim ≥ (S.setTree h).bound dim)) from hc)]

end commute

theorem links_hvAreaInit (p1 m : ℕ) (S : HvState ℝ) : links (hvAreaInit x ref p1 m S) = links S := by
  obtain ⟨⟨ar, h⟩, -⟩ := hvAreaInit_rest (x := x) (ref := ref) p1 m S
  rw [h]; rfl

/-- The lists of the dimensions `2, …, j` hold the nodes `A`. -/
structure HvLists (pos : ℕ → ℕ → ℕ) (n j : ℕ) (A : List ℕ) (S : HvState ℝ) : Prop where
  nodup : A.Nodup
  ne : A ≠ []
  zero : 0 ∉ A
  len : A.length ≤ n
  lists : ∀ i, 2 ≤ i → i ≤ j → LinkedSet (S.next i) (S.prev i) (pos i) A

/-- `rec'` on memory with any tree gives the same value and the same memory up to the tree as `rec`, and `rec` restores the pointers. -/
def HvSameRec (pos : ℕ → ℕ → ℕ) (n j : ℕ) (rec' rec : ℕ → HvState ℝ → ℝ × HvState ℝ) : Prop :=
  ∀ (A : List ℕ) (S : HvState ℝ) (h : AvlHeap), HvLists pos n j A S →
    (∃ h', rec' A.length (S.setTree h) = ((rec A.length S).1, (rec A.length S).2.setTree h')) ∧ links (rec A.length S).2 = links S

theorem links_hv3dLoop (x : ℕ → ℕ → ℝ) (ref : ℕ → ℝ) : ∀ (fuel pp : ℕ) (T : List ℕ) (a v : ℝ) (S : HvState ℝ),
    links (hv3dLoop x ref fuel pp T a v S).2 = links S
  | 0, _, _, _, _, _ => rfl
  | fuel + 1, pp, T, a, v, S => by
    unfold hv3dLoop
    dsimp only
    by_cases hig : S.ignore pp ≥ 2
    · simp only [if_pos hig]
      by_cases hn : S.next 2 pp = 0
      · rw [if_pos hn]
      · rw [if_neg hn]; exact links_hv3dLoop x ref fuel _ _ _ _ _
    · simp only [if_neg hig]
      cases hu : hv3dUpdate x ref T pp a with
      | none =>
        dsimp only
        by_cases hn : S.next 2 pp = 0
        · rw [if_pos hn]; rfl
        · rw [if_neg hn, links_hv3dLoop x ref fuel]; rfl
      | some r =>
        dsimp only
        by_cases hn : S.next 2 pp = 0
        · rw [if_pos hn]
        · rw [if_neg hn]; exact links_hv3dLoop x ref fuel _ _ _ _ _

theorem links_hv3dRef (x : ℕ → ℕ → ℝ) (ref : ℕ → ℝ) (c : ℕ) (S : HvState ℝ) : links (hv3dRef x ref c S).2 = links S := by
  unfold hv3dRef
  dsimp only
  by_cases hn : S.next 2 (S.next 2 0) = 0
  · rw [if_pos hn]
  · rw [if_neg hn]; exact links_hv3dLoop ..

theorem hv3dTreeRef_same (tf n : ℕ) (hn : n < 2 ^ 125) (htf : n < tf) (x : ℕ → ℕ → ℝ) (ref : ℕ → ℝ) :
    HvSameRec pos n 2 (hv3dTreeRef tf x ref) (hv3dRef x ref) := by
  intro A S h hA
  refine ⟨?_, links_hv3dRef x ref _ S⟩
  obtain ⟨l, hmem, hl, hlink⟩ := hA.lists 2 (le_refl _) (le_refl _)
  have hlen : l.length = A.length := length_eq_of_mem_iff (pairwise_pos_nodup hl) hA.nodup hmem
  have hlne : l ≠ [] := by
    rintro rfl
    exact hA.ne (List.length_eq_zero_iff.1 hlen.symm)
  have hl2 := hA.len
  obtain ⟨h', e, -⟩ := hv3dTreeRef_eq tf x ref (pairwise_pos_nodup hl) (fun hz => hA.zero ((hmem 0).1 hz)) hlne S h hlink (by omega) (by omega)
  rw [hlen] at e
  exact ⟨h', e⟩

/-- Standing assumptions of a level, pointers only. -/
structure LvlLinks (pos : ℕ → ℕ → ℕ) (n j : ℕ) (l : List ℕ) (S0 : HvState ℝ) : Prop where
  j2 : 2 ≤ j
  sorted : l.Pairwise (fun a b => pos (j + 1) a < pos (j + 1) b)
  zero : 0 ∉ l
  len : l.length ≤ n
  link : Linked (S0.next (j + 1)) (S0.prev (j + 1)) l
  lists : ∀ i, 2 ≤ i → i < j + 1 → LinkedSet (S0.next i) (S0.prev i) (pos i) l

variable {n j : ℕ} {l : List ℕ} {S0 : HvState ℝ}

theorem LvlLinks.hvLists (hc : LvlLinks pos n j l S0) {r s : List ℕ} {S : HvState ℝ} (hl : l = r ++ s) (hr : r ≠ [])
    (hlnk : links S = delLinks (j + 1) (links S0) s) : HvLists pos n j r S := by
  have hnd := pairwise_pos_nodup hc.sorted
  have hlen := hc.len
  refine { nodup := (List.nodup_append.1 (hl ▸ hnd)).1, ne := hr, zero := fun hz => hc.zero (by rw [hl]; simp [hz]), len := ?_, lists := ?_ }
  · rw [hl, List.length_append] at hlen; omega
  · intro i h2 hi
    have := delLinks_lists (pos := pos) (j + 1) (links S0) i h2 (by omega) s r (hl ▸ hnd) (hl ▸ hc.zero) (hl ▸ hc.lists i h2 (by omega))
    rw [← hlnk] at this
    exact this

theorem skip_same {rec' rec : ℕ → HvState ℝ → ℝ × HvState ℝ} (hrec : HvSameRec pos n j rec' rec) {A : List ℕ} {S : HvState ℝ}
    (hA : HvLists pos n j A S) (h : AvlHeap) (p : ℕ) :
    (∃ h', skipOrRecurse rec' (j + 1) A.length p (S.setTree h) = (skipOrRecurse rec (j + 1) A.length p S).setTree h') ∧
      links (skipOrRecurse rec (j + 1) A.length p S) = links S := by
  unfold skipOrRecurse
  by_cases hig : S.ignore p ≥ j + 1
  · rw [if_pos hig, if_pos (show (S.setTree h).ignore p ≥ j + 1 from hig)]
    exact ⟨⟨h, rfl⟩, rfl⟩
  · rw [if_neg hig, if_neg (show ¬ (S.setTree h).ignore p ≥ j + 1 from hig)]
    obtain ⟨⟨h', e⟩, hl⟩ := hrec A S h hA
    dsimp only
    rw [e]
    by_cases hc : ({ (rec A.length S).2 with area := upd2 (rec A.length S).2.area (j + 1) p (rec A.length S).1 } : HvState ℝ).area (j + 1) p ≤
        ({ (rec A.length S).2 with area := upd2 (rec A.length S).2.area (j + 1) p (rec A.length S).1 } : HvState ℝ).area (j + 1) ((rec A.length S).2.prev (j + 1) p)
    · refine ⟨⟨h', ?_⟩, ?_⟩
      · rw [if_pos hc]; exact if_pos hc
      · rw [if_pos hc]; exact hl
    · refine ⟨⟨h', ?_⟩, ?_⟩
      · rw [if_neg hc]; exact if_neg hc
      · rw [if_neg hc]; exact hl

theorem mainLoop_same {rec' rec : ℕ → HvState ℝ → ℝ × HvState ℝ} (hrec : HvSameRec pos n j rec' rec) (hc : LvlLinks pos n j l S0) :
    ∀ (s r' : List ℕ) (p1 fuel c : ℕ) (hyperv : ℝ) (S : HvState ℝ) (h : AvlHeap), l = r' ++ p1 :: s → s.length ≤ fuel → c = r'.length + 1 →
      links S = delLinks (j + 1) (links S0) s →
      (∃ h', hvMainLoop rec' x (j + 1) fuel c (s.headD 0) p1 hyperv (S.setTree h) =
        ((hvMainLoop rec x (j + 1) fuel c (s.headD 0) p1 hyperv S).1, (hvMainLoop rec x (j + 1) fuel c (s.headD 0) p1 hyperv S).2.1,
          (hvMainLoop rec x (j + 1) fuel c (s.headD 0) p1 hyperv S).2.2.setTree h')) ∧
      links (hvMainLoop rec x (j + 1) fuel c (s.headD 0) p1 hyperv S).2.2 = links S0 := by
  intro s
  induction s with
  | nil =>
    intro r' p1 fuel c hyperv S h hl hf hcl hlnk
    cases fuel with
    | zero => exact ⟨⟨h, rfl⟩, hlnk⟩
    | succ f =>
      unfold hvMainLoop
      rw [if_pos (by rfl), if_pos (by rfl)]
      exact ⟨⟨h, rfl⟩, hlnk⟩
  | cons p0 s ih =>
    intro r' p1 fuel c hyperv S h hl hf hcl hlnk
    obtain ⟨f, rfl⟩ : ∃ f, fuel = f + 1 := ⟨fuel - 1, by simp at hf; omega⟩
    have hj2 := hc.j2
    have hnd := pairwise_pos_nodup hc.sorted
    have hl' : l = (r' ++ [p1]) ++ p0 :: s := by rw [hl]; simp
    have hl'' : l = (r' ++ [p1] ++ [p0]) ++ s := by rw [hl]; simp
    have hp0 : p0 ≠ 0 := fun e => hc.zero (by rw [hl]; simp [e])
    unfold hvMainLoop
    rw [if_neg (show ¬ (p0 :: s).headD 0 = 0 from hp0), if_neg (show ¬ (p0 :: s).headD 0 = 0 from hp0)]
    dsimp only [List.headD_cons]
    set S1 : HvState ℝ := { S with bound := upd S.bound (j + 1) (x p0 (j + 1)) } with hS1
    have e1 : ({ S.setTree h with bound := upd (S.setTree h).bound (j + 1) (x p0 (j + 1)) } : HvState ℝ) = S1.setTree h := rfl
    have e2 : hvReinsert x p0 (j + 1) (S1.setTree h) = (hvReinsert x p0 (j + 1) S1).setTree h := hvReinsertLoop_setTree h p0 S1 _
    rw [e1, e2]
    set S2 := hvReinsert x p0 (j + 1) S1 with hS2
    have hlnk2 : links S2 = delLinks (j + 1) (links S0) s := by
      rw [hS2, links_hvReinsert p0 (j + 1) (by omega)]
      have : links S1 = links S := rfl
      rw [this, hlnk]
      exact relink_delLinks (j + 1) (links S0) p0 s (r' ++ [p1]) (hl' ▸ hnd) (hl' ▸ hc.zero) (fun i h2 hi => hl' ▸ hc.lists i h2 hi)
    have hnext : S2.next (j + 1) p0 = s.headD 0 := by
      have hh := delLinks_of_not (j + 1) (links S0) s (j + 1) (by omega)
      have h2 : S2.next = (delLinks (j + 1) (links S0) s).1 := congrArg Prod.fst hlnk2
      have hat := LinkedFrom.at (hl' ▸ hc.link : Linked _ _ ((r' ++ [p1]) ++ p0 :: s))
      rw [h2, hh.1]; exact hat.2.2.1
    set V := hyperv + S.area (j + 1) p1 * (x p0 (j + 1) - x p1 (j + 1)) with hV
    have eV : hyperv + (S.setTree h).area (j + 1) p1 * (x p0 (j + 1) - x p1 (j + 1)) = V := rfl
    rw [eV]
    set S3 : HvState ℝ := { S2 with vol := upd2 S2.vol (j + 1) p0 V } with hS3
    have e3 : ({ S2.setTree h with vol := upd2 (S2.setTree h).vol (j + 1) p0 V } : HvState ℝ) = S3.setTree h := rfl
    have e4 : (S2.setTree h).next (j + 1) p0 = S2.next (j + 1) p0 := rfl
    rw [e3, e4, hnext]
    have hlists := hc.hvLists (S := S3) hl'' (by simp) hlnk2
    obtain ⟨⟨h1, k1⟩, k2⟩ := skip_same hrec hlists h p0
    have hlen : c + 1 = (r' ++ [p1] ++ [p0]).length := by rw [hcl]; simp
    rw [hlen, k1]
    have := ih (r' ++ [p1]) p0 f (r' ++ [p1] ++ [p0]).length V (skipOrRecurse rec (j + 1) (r' ++ [p1] ++ [p0]).length p0 S3) h1 hl'
      (by simp at hf; omega) (by simp) (k2.trans hlnk2)
    exact this

theorem delLoop_links (hc : LvlLinks pos n j l S0) : ∀ (m : ℕ) (r s : List ℕ) (S : HvState ℝ), r.length = m → r ≠ [] →
    l = r ++ s → links S = delLinks (j + 1) (links S0) s →
    ∃ (r' : List ℕ) (p1 : ℕ) (s' : List ℕ) (S' : HvState ℝ),
      hvDelLoop x (j + 1) m (s.headD 0) (lastD 0 r) S = (r'.length + 1, s'.headD 0, p1, S') ∧
      l = r' ++ p1 :: s' ∧ links S' = delLinks (j + 1) (links S0) s' := by
  intro m
  induction m with
  | zero =>
    intro r s S hlen hne
    exact absurd (List.length_eq_zero_iff.1 hlen) hne
  | succ n ih =>
    intro r s S hlen hne hl hlnk
    rcases List.eq_nil_or_concat r with rfl | ⟨r', p1, rfl⟩
    · exact absurd rfl hne
    rw [List.concat_eq_append] at *
    have hl' : l = r' ++ p1 :: s := by rw [hl]; simp
    have hlen' : r'.length = n := by simp at hlen; exact hlen
    have hj2 := hc.j2
    rw [lastD_append_singleton]
    unfold hvDelLoop
    by_cases hcond : n + 1 > 1 ∧ (x p1 (j + 1) > S.bound (j + 1) ∨ x (S.prev (j + 1) p1) (j + 1) ≥ S.bound (j + 1))
    · rw [if_pos hcond]
      dsimp only
      have hlnk1 : links (hvDelete x p1 (j + 1) S) = delLinks (j + 1) (links S0) (p1 :: s) := by
        rw [links_hvDelete p1 (j + 1) (by omega), hlnk]; rfl
      have hprev1 : (hvDelete x p1 (j + 1) S).prev (j + 1) p1 = lastD 0 r' := by
        have h := delLinks_of_not (j + 1) (links S0) (p1 :: s) (j + 1) (by omega)
        have h2 : (hvDelete x p1 (j + 1) S).prev = (delLinks (j + 1) (links S0) (p1 :: s)).2 := congrArg Prod.snd hlnk1
        have hat := LinkedFrom.at (hl' ▸ hc.link : Linked _ _ (r' ++ p1 :: s))
        rw [h2, h.2]; exact hat.1
      rw [hprev1]
      have hne' : r' ≠ [] := by
        intro he
        rw [he] at hlen'
        simp at hlen'
        omega
      exact ih r' (p1 :: s) _ hlen' hne' hl' hlnk1
    · rw [if_neg hcond]
      exact ⟨r', p1, s, S, by rw [hlen'], hl', hlnk⟩

/-- One level of the recursion gives the same with and without the tree if the next lower one does. -/
theorem hvLevel_same {rec' rec : ℕ → HvState ℝ → ℝ × HvState ℝ} (hrec : HvSameRec pos n j rec' rec) (hj2 : 2 ≤ j) :
    HvSameRec pos n (j + 1) (hvLevel rec' x ref (j + 1)) (hvLevel rec x ref (j + 1)) := by
  intro A S h hA
  obtain ⟨l, hmem, hsorted, hlink⟩ := hA.lists (j + 1) (by omega) (le_refl _)
  have hlen : l.length = A.length := length_eq_of_mem_iff (pairwise_pos_nodup hsorted) hA.nodup hmem
  have hlen2 := hA.len
  have hlne : l ≠ [] := by
    rintro rfl
    exact hA.ne (List.length_eq_zero_iff.1 hlen.symm)
  have h0 : 0 ∉ l := fun hz => hA.zero ((hmem 0).1 hz)
  have hc : LvlLinks pos n j l S :=
    { j2 := hj2, sorted := hsorted, zero := h0, len := by omega, link := hlink
      lists := by
        intro i h2 hi
        obtain ⟨m, hm1, hm2, hm3⟩ := hA.lists i h2 (by omega)
        exact ⟨m, fun p => (hm1 p).trans (hmem p).symm, hm2, hm3⟩ }
  have hp0 : S.prev (j + 1) 0 = lastD 0 l := LinkedFrom.last hlink
  have hreset := hvReset_spec (j + 1) l [] A.length S (by rw [List.append_nil]; exact hlink) h0 (pairwise_pos_nodup hsorted) (by omega) rfl
  set S1 : HvState ℝ := { S with ignore := fun p => if p ∈ l ∧ S.ignore p < j + 1 then 0 else S.ignore p } with hS1
  obtain ⟨r', p1, s', S2, g1, g2, g3⟩ := delLoop_links (x := x) hc A.length l [] S1 hlen hlne (by rw [List.append_nil]) rfl
  rw [List.headD_nil] at g1
  have e0 : (S.setTree h).prev (j + 1) 0 = lastD 0 l := hp0
  have e1 : S1.prev (j + 1) 0 = lastD 0 l := hp0
  have e1' : (S1.setTree h).prev (j + 1) 0 = lastD 0 l := hp0
  have hlistsR : ∀ S3 : HvState ℝ, links S3 = links S2 → HvLists pos n j (r' ++ [p1]) S3 := fun S3 h3 =>
    hc.hvLists (s := s') (by rw [g2]; simp) (by simp) (h3.trans g3)
  have hlenR : r'.length + 1 = (r' ++ [p1]).length := by simp
  unfold hvLevel
  dsimp only
  rw [e0, hp0, hvReset_setTree, hreset, e1', e1, hvDelLoop_setTree, g1]
  dsimp only
  by_cases hcc : r'.length + 1 > 1
  · simp only [if_pos hcc]
    set V := S2.vol (j + 1) (S2.prev (j + 1) p1) + S2.area (j + 1) (S2.prev (j + 1) p1) * (x p1 (j + 1) - x (S2.prev (j + 1) p1) (j + 1)) with hV
    set S3 : HvState ℝ := { S2 with vol := upd2 S2.vol (j + 1) p1 V } with hS3
    obtain ⟨⟨h1, k1⟩, k2⟩ := skip_same hrec (hlistsR S3 rfl) h p1
    rw [← hlenR] at k1 k2
    have k1' : skipOrRecurse rec' (j + 1) (r'.length + 1) p1
        ({ S2.setTree h with vol := upd2 (S2.setTree h).vol (j + 1) p1 ((S2.setTree h).vol (j + 1) ((S2.setTree h).prev (j + 1) p1) +
          (S2.setTree h).area (j + 1) ((S2.setTree h).prev (j + 1) p1) * (x p1 (j + 1) - x ((S2.setTree h).prev (j + 1) p1) (j + 1))) } : HvState ℝ) = _ := k1
    rw [k1']
    obtain ⟨⟨h2, m1⟩, m2⟩ := mainLoop_same (x := x) hrec hc s' r' p1 A.length (r'.length + 1) V _ h1 g2
      (by rw [← hlen, g2]; simp; omega) rfl (k2.trans g3)
    have m1' : hvMainLoop rec' x (j + 1) A.length (r'.length + 1) (s'.headD 0) p1 ((S2.setTree h).vol (j + 1) ((S2.setTree h).prev (j + 1) p1) +
          (S2.setTree h).area (j + 1) ((S2.setTree h).prev (j + 1) p1) * (x p1 (j + 1) - x ((S2.setTree h).prev (j + 1) p1) (j + 1)))
          ((skipOrRecurse rec (j + 1) (r'.length + 1) p1 S3).setTree h1) = _ := m1
    rw [m1']
    exact ⟨⟨h2, rfl⟩, m2⟩
  · simp only [if_neg hcc]
    rw [hvAreaInit_setTree]
    set S3 : HvState ℝ := { hvAreaInit x ref p1 (j + 1) S2 with vol := upd2 (hvAreaInit x ref p1 (j + 1) S2).vol (j + 1) p1 0 } with hS3
    have hl3 : links S3 = links S2 := links_hvAreaInit (x := x) (ref := ref) p1 (j + 1) S2
    obtain ⟨⟨h1, k1⟩, k2⟩ := skip_same hrec (hlistsR S3 hl3) h p1
    rw [← hlenR] at k1 k2
    have k1' : skipOrRecurse rec' (j + 1) (r'.length + 1) p1
        ({ (hvAreaInit x ref p1 (j + 1) S2).setTree h with vol := upd2 ((hvAreaInit x ref p1 (j + 1) S2).setTree h).vol (j + 1) p1 0 } : HvState ℝ) = _ := k1
    rw [k1']
    obtain ⟨⟨h2, m1⟩, m2⟩ := mainLoop_same (x := x) hrec hc s' r' p1 A.length (r'.length + 1) 0 _ h1 g2
      (by rw [← hlen, g2]; simp; omega) rfl (k2.trans (hl3.trans g3))
    rw [m1]
    exact ⟨⟨h2, rfl⟩, m2⟩

theorem hvTreeRec_same (tf n : ℕ) (hn : n < 2 ^ 125) (htf : n < tf) (x : ℕ → ℕ → ℝ) (ref : ℕ → ℝ) :
    ∀ k, HvSameRec pos n (k + 2) (hvTreeRec tf x ref k) (hvRec x ref k)
  | 0 => hv3dTreeRef_same tf n hn htf x ref
  | k + 1 => hvLevel_same (hvTreeRec_same tf n hn htf x ref k) (by omega)

/-! ### The whole computation -/

section commute2
variable (h : AvlHeap)

theorem linkFrom_setTree (j : ℕ) : ∀ (l : List ℕ) (a : ℕ) (S : HvState ℝ), linkFrom j a l (S.setTree h) = (linkFrom j a l S).setTree h
  | [], _, _ => rfl
  | q :: qs, a, S => linkFrom_setTree j qs q { S with next := upd2 S.next j a q, prev := upd2 S.prev j q a }

theorem linkAll_setTree (ords : ℕ → List ℕ) : ∀ (m : ℕ) (S : HvState ℝ), linkAll ords m (S.setTree h) = (linkAll ords m S).setTree h
  | 0, _ => rfl
  | m + 1, S => by rw [linkAll, linkFrom_setTree, linkAll_setTree ords m]; rfl

theorem setupCdllist_setTree (ords : ℕ → List ℕ) (d : ℕ) (b0 : ℝ) (S : HvState ℝ) :
    setupCdllist ords d b0 (S.setTree h) = (setupCdllist ords d b0 S).setTree h :=
  linkAll_setTree h ords d { S with ignore := fun _ => 0, area := fun i p => if p = 0 ∧ i < d then 0 else S.area i p, bound := fun _ => b0 }

theorem filterDeleteNode_setTree (p : ℕ) (S : HvState ℝ) : ∀ m, filterDeleteNode p m (S.setTree h) = (filterDeleteNode p m S).setTree h
  | 0 => rfl
  | m + 1 => by rw [filterDeleteNode, filterDeleteNode_setTree p S m]; rfl

theorem filterDim_setTree (d i : ℕ) : ∀ (np aux n : ℕ) (S : HvState ℝ), filterDim x ref d i np aux n (S.setTree h) =
    ((filterDim x ref d i np aux n S).1, (filterDim x ref d i np aux n S).2.setTree h)
  | 0, _, _, _ => rfl
  | np + 1, aux, n, S => by
    unfold filterDim
    by_cases hx : x aux i < ref i
    · rw [if_pos hx, if_pos hx]
    · rw [if_neg hx, if_neg hx, filterDeleteNode_setTree]
      exact filterDim_setTree d i np _ _ _

theorem filterRef_setTree (d n : ℕ) (S : HvState ℝ) : ∀ m, filterRef x ref d m n (S.setTree h) =
    ((filterRef x ref d m n S).1, (filterRef x ref d m n S).2.setTree h)
  | 0 => rfl
  | m + 1 => by
    unfold filterRef
    dsimp only
    rw [filterRef_setTree d n S m]
    exact filterDim_setTree h d m _ _ _ _

end commute2

/-- `fpli_hv` for `d ≥ 3` gives the same value on the nodes of the tree and on the list of items, whatever the order of ties. -/
theorem fpliHvTreeN_same (tf : ℕ) (hd : 3 ≤ d) (n : ℕ) (hn : n < 2 ^ 125) (htf : n < tf) (ords : ℕ → List ℕ) (b0 : ℝ) (mem : HvState ℝ)
    (hord : HvOrders x d n ords) : fpliHvTreeN tf x d n ref ords b0 mem = fpliHvN x d n ref ords b0 mem := by
  set N := List.range' 1 n with hNdef
  have hNnd : N.Nodup := by rw [hNdef]; exact List.nodup_range'
  have hN0 : 0 ∉ N := by rw [hNdef, List.mem_range'_1]; omega
  set pos : ℕ → ℕ → ℕ := fun i p => (ords i).idxOf p with hpos
  have hperm : ∀ i < d, (ords i).Perm N := fun i hi => hvOrders_perm hord i hi
  have hnd : ∀ i < d, (ords i).Nodup := fun i hi => (hperm i hi).nodup_iff.2 hNnd
  have hmem : ∀ i < d, ∀ p, p ∈ ords i ↔ p ∈ N := fun i hi p => (hperm i hi).mem_iff
  have hsort : ∀ i < d, ∀ p ∈ N, ∀ q ∈ N, pos i p < pos i q → x p i ≤ x q i := by
    intro i hi p hp q hq hlt
    exact pairwise_of_idxOf (hvOrders_sorted hord i hi) ((hmem i hi p).2 hp) ((hmem i hi q).2 hq) hlt
  obtain ⟨s1, -⟩ := linkAll_spec ords d
    { mem with
      ignore := fun _ => 0
      area := fun i p => if p = 0 ∧ i < d then 0 else mem.area i p
      bound := fun _ => b0 } (fun i hi => ⟨hnd i hi, fun h => hN0 ((hmem i hi 0).1 h)⟩)
  have hls0 : ∀ k < d, LinkedSet ((setupCdllist ords d b0 mem).next k) ((setupCdllist ords d b0 mem).prev k) (pos k) N :=
    fun k hk => ⟨ords k, hmem k hk, pairwise_idxOf (hnd k hk), s1 k hk⟩
  obtain ⟨A, S1, f1, f2, f3, f4, -⟩ := filterRef_spec (ref := ref) hsort hN0 hNnd _ hls0 d (le_refl _)
  have hNlen : N.length = n := by rw [hNdef, List.length_range']
  rw [hNlen] at f1
  unfold fpliHvTreeN fpliHvN
  have e : setupCdllist ords d b0 ({ mem with tree := avlClearTree mem.tree } : HvState ℝ) =
      (setupCdllist ords d b0 mem).setTree (avlClearTree mem.tree) := setupCdllist_setTree _ ords d b0 mem
  rw [e, filterRef_setTree, f1]
  dsimp only
  by_cases hA0 : A.length = 0
  · rw [if_pos hA0, if_pos hA0]
  · rw [if_neg hA0, if_neg hA0]
    by_cases hA1 : A.length = 1
    · rw [if_pos hA1, if_pos hA1]; rfl
    · rw [if_neg hA1, if_neg hA1]
      have hlists : HvLists pos n (d - 3 + 2) A S1 :=
        { nodup := f2, ne := fun hh => hA0 (by rw [hh]; rfl), zero := fun hz => hN0 ((f3 0).1 hz).1
          len := by
            rw [← hNlen]; exact (List.subperm_of_subset f2 (fun p hp => ((f3 p).1 hp).1)).length_le
          lists := fun i _ hi => f4 i (by omega) }
      obtain ⟨⟨h', e2⟩, -⟩ := hvTreeRec_same (pos := pos) tf n hn htf x ref (d - 3) A S1 (avlClearTree mem.tree) hlists
      rw [e2]

end Moo
