import Verif.Lemmas.Eaf3dLoop

/-!
# `find_all_promoters` marks exactly the runs that attain the point
-/

set_option autoImplicit false
set_option linter.unusedSectionVars false

namespace Moo

variable {α : Type*} [LinearOrder α]

/-- `m` is reached from the node with number `i` by `equal`, in at least one step. -/
inductive EqReach (h : Heap3 α) : ℕ → LNode α → Prop
  | one {i : ℕ} {m : LNode α} : h.eql i = some m → EqReach h i m
  | step {i : ℕ} {m m' : LNode α} : h.eql i = some m → EqReach h m.id m' → EqReach h i m'

/-- From `att` to `att'`, only runs that attain `n` were marked. -/
def Sound (P : List (Pt3 α)) (n : LNode α) (att att' : ℕ → ℤ) : Prop := ∀ s, att' s = att s ∨ (att' s = 1 ∧ At3 P s n.x n.y n.z)

section
variable {nset : ℕ} {P : List (Pt3 α)} {h : Heap3 α} {g : Ghost α}

theorem Sound.refl (n : LNode α) (att : ℕ → ℤ) : Sound P n att att := fun _ => Or.inl rfl

theorem Sound.trans {n : LNode α} {a b c : ℕ → ℤ} (h1 : Sound P n a b) (h2 : Sound P n b c) : Sound P n a c := by
  intro s
  rcases h2 s with h | h
  · rw [h]
    exact h1 s
  · exact Or.inr h

theorem Sound.mono {m n : LNode α} {a b : ℕ → ℤ} (h1 : Sound P m a b) (hle : NLe m n) : Sound P n a b :=
  fun s => (h1 s).imp id (fun h => ⟨h.1, h.2.mono hle.1 hle.2.1 hle.2.2⟩)

theorem Sound.keep {n : LNode α} {a b : ℕ → ℤ} (h1 : Sound P n a b) {s : ℕ} (hs : a s = 1) : b s = 1 := by
  rcases h1 s with h | h
  · rw [h, hs]
  · exact h.1

theorem HInv.self (H : HInv nset P h g) {n : LNode α} (hn : Alloc h.fresh g n) : n.set ∈ g.ch n.id := by
  rcases H.prom n.id hn.1 hn.2.1 with ⟨-, h1⟩ | ⟨m, -, -, -, -, h1⟩
  · rw [h1, hn.2.2]
    simp
  · rw [h1, hn.2.2]
    simp

theorem HInv.mark (H : HInv nset P h g) {n : LNode α} (hn : Alloc h.fresh g n) (att : ℕ → ℤ) : Sound P n att (upd att n.set 1) := by
  intro s
  by_cases hs : s = n.set
  · right
    rw [hs, upd_same]
    refine ⟨rfl, ?_⟩
    have := (H.att n.id hn.1 hn.2.1 _ (H.self hn)).2
    rwa [hn.2.2] at this
  · left
    rw [upd_ne _ _ hs]

theorem promEqual_spec (H : HInv nset P h g) : ∀ (fuel : ℕ) (n : LNode α) (att : ℕ → ℤ), Alloc h.fresh g n → nset ≤ g.lev n.id + fuel + 1 →
    ∃ att', promEqual h fuel (h.eql n.id) att = some att' ∧ Sound P n att att' ∧ ∀ m, EqReach h n.id m → att' m.set = 1 := by
  intro fuel
  induction fuel with
  | zero =>
    intro n att hn hf
    cases he : h.eql n.id with
    | none =>
      refine ⟨att, by unfold promEqual; rfl, Sound.refl n att, ?_⟩
      intro m hm
      cases hm with
      | one h1 => rw [he] at h1; simp at h1
      | step h1 => rw [he] at h1; simp at h1
    | some m =>
      exfalso
      obtain ⟨h1, h2, -⟩ := H.eql n.id hn.1 hn.2.1 m he
      have := H.lev m.id h1.1 h1.2.1
      omega
  | succ f ih =>
    intro n att hn hf
    cases he : h.eql n.id with
    | none =>
      refine ⟨att, by unfold promEqual; rfl, Sound.refl n att, ?_⟩
      intro m hm
      cases hm with
      | one h1 => rw [he] at h1; simp at h1
      | step h1 => rw [he] at h1; simp at h1
    | some m =>
      obtain ⟨h1, h2, h3⟩ := H.eql n.id hn.1 hn.2.1 m he
      rw [hn.2.2] at h3
      have hle : NLe m n := ⟨h3.1.le, h3.2.1.le, h3.2.2.le⟩
      obtain ⟨att', h4, h5, h6⟩ := ih m (upd att m.set 1) h1 (by omega)
      refine ⟨att', by unfold promEqual; exact h4, ((H.mark h1 att).mono hle).trans (h5.mono hle), ?_⟩
      intro m' hm'
      have hms : att' m.set = 1 := h5.keep (upd_same _ _ _)
      cases hm' with
      | one h7 =>
        rw [he, Option.some.injEq] at h7
        rw [← h7]
        exact hms
      | step h7 h8 =>
        rw [he, Option.some.injEq] at h7
        rw [← h7] at h8
        exact h6 m' h8

/-- The measure for the recursion. -/
def promMeasure (fresh : ℕ) (g : Ghost α) (i : ℕ) : ℕ := g.lev i * fresh + (fresh - i)

theorem findAll_spec (H : HInv nset P h g) : ∀ (v : ℕ) (n : LNode α), Alloc h.fresh g n → promMeasure h.fresh g n.id = v →
    (∀ f att, nset + 2 * v + 1 ≤ f → ∃ att', promChain h f (some n) att = some att' ∧ Sound P n att att' ∧ ∀ s ∈ g.ch n.id, att' s = 1) ∧
    (∀ f att, nset + 2 * v + 2 ≤ f → ∃ att', findAllPromoters h f n att = some att' ∧ Sound P n att att' ∧ (∀ s ∈ g.ch n.id, att' s = 1) ∧
      ∀ m, EqReach h n.id m → att' m.set = 1) := by
  intro v
  induction v using Nat.strong_induction_on with
  | _ v ih =>
    intro n hn hv
    have hchain : ∀ f att, nset + 2 * v + 1 ≤ f → ∃ att', promChain h f (some n) att = some att' ∧ Sound P n att att' ∧ ∀ s ∈ g.ch n.id, att' s = 1 := by
      intro f att hf
      obtain ⟨f, rfl⟩ : ∃ f', f = f' + 1 := ⟨f - 1, by omega⟩
      -- the remover
      have h1 : ∃ att1, (match h.rem n.id with
          | none => some (upd att n.set 1)
          | some r => findAllPromoters h f r (upd att n.set 1)) = some att1 ∧ Sound P n att att1 ∧ att1 n.set = 1 := by
        cases hr : h.rem n.id with
        | none => exact ⟨_, rfl, H.mark hn att, upd_same _ _ _⟩
        | some r =>
          obtain ⟨h2, h3, h4, h5⟩ := H.rem n.id hn.1 hn.2.1 r hr
          rw [hn.2.2] at h5
          have hlt : promMeasure h.fresh g r.id < v := by
            rw [← hv]
            unfold promMeasure
            rw [h4]
            have := h2.2.1
            omega
          obtain ⟨att1, h6, h7, -⟩ := (ih _ hlt r h2 rfl).2 f (upd att n.set 1) (by omega)
          exact ⟨att1, h6, (H.mark hn att).trans (h7.mono h5), h7.keep (upd_same _ _ _)⟩
      obtain ⟨att1, e1, hs1, hm1⟩ := h1
      -- the promoter
      have h2 : ∃ att', promChain h f (h.prom n.id) att1 = some att' ∧ Sound P n att1 att' ∧ ∀ s ∈ g.ch n.id, att' s = 1 := by
        rcases H.prom n.id hn.1 hn.2.1 with ⟨h3, h4⟩ | ⟨m, h3, h4, h5, h6, h7⟩
        · rw [h3]
          refine ⟨att1, by cases f <;> unfold promChain <;> rfl, Sound.refl _ _, ?_⟩
          intro s hs
          rw [h4, hn.2.2, Finset.mem_singleton] at hs
          rw [hs]
          exact hm1
        · rw [hn.2.2] at h6 h7
          have hlt : promMeasure h.fresh g m.id < v := by
            rw [← hv]
            unfold promMeasure
            rw [h5, Nat.succ_mul]
            have := h4.1
            have := h4.2.1
            omega
          rw [h3]
          obtain ⟨att', h8, h9, h10⟩ := (ih _ hlt m h4 rfl).1 f att1 (by omega)
          refine ⟨att', h8, h9.mono h6, ?_⟩
          intro s hs
          rw [h7, Finset.mem_insert] at hs
          rcases hs with rfl | hs
          · exact h9.keep hm1
          · exact h10 s hs
      obtain ⟨att', e2, hs2, hm2⟩ := h2
      refine ⟨att', ?_, hs1.trans hs2, hm2⟩
      unfold promChain
      cases hr : h.rem n.id with
      | none =>
        rw [hr] at e1
        simp only [Option.some.injEq] at e1
        simp only
        rw [e1]
        exact e2
      | some r =>
        rw [hr] at e1
        simp only at e1 ⊢
        rw [e1]
        exact e2
    refine ⟨hchain, ?_⟩
    intro f att hf
    obtain ⟨f, rfl⟩ : ∃ f', f = f' + 1 := ⟨f - 1, by omega⟩
    obtain ⟨att1, e1, hs1, hm1⟩ := hchain f att (by omega)
    obtain ⟨att2, e2, hs2, hm2⟩ := promEqual_spec H f n att1 hn (by omega)
    refine ⟨att2, ?_, hs1.trans hs2, fun s hs => hs2.keep (hm1 s hs), hm2⟩
    unfold findAllPromoters
    rw [e1]
    exact e2

end

section
variable {mn mx junk : α} {nset : ℕ} {xs : α → Prop} {P : List (Pt3 α)} {zb : α} {st : St3 α} {g : Ghost α}

/-- The chain of `equal` passes through the live nodes with the same coordinates. -/
theorem eqReach_of_live (h : Inv3 mn mx junk nset xs P zb st) (hg : HG mn mx nset P st g) : ∀ (d k : ℕ) (n m : LNode α), Live mn mx st k n →
    Live mn mx st (k + d + 1) m → NEq n m → EqReach st.heap n.id m := by
  intro d
  induction d with
  | zero =>
    intro k n m hn hm he
    exact EqReach.one (hg.eq k n m hn hm he)
  | succ d ih =>
    intro k n m hn hm he
    have hc := h.live_count hm
    rw [← he.1, ← he.2.1, ← he.2.2] at hc
    obtain ⟨m1, h1, h2⟩ := h.live_equal (j := k + 1) hn (by omega) (by omega)
    refine EqReach.step (hg.eq k n m1 hn h1 h2) (ih (k + 1) m1 m h1 ?_ (h2.symm.trans he))
    have : k + 1 + d + 1 = k + (d + 1) + 1 := by omega
    rw [this]
    exact hm

/-- A number of iterations that suffices for `find_all_promoters`. -/
def promFuel (nset : ℕ) (fresh : ℕ) : ℕ := nset + 2 * (nset * fresh + fresh) + 2

/-- `find_all_promoters` on a node of the output. -/
theorem findAllPromoters_live (h : Inv3 mn mx junk nset xs P zb st) (hg : HG mn mx nset P st g) {k : ℕ} {n : LNode α} (hn : Live mn mx st k n)
    {fuel : ℕ} (hf : promFuel nset st.heap.fresh ≤ fuel) :
    ∃ att, findAllPromoters st.heap fuel n (fun _ => 0) = some att ∧ (∀ s, att s = 0 ∨ att s = 1) ∧
      ∀ s, s < nset → (att s ≠ 0 ↔ At3 P s n.x n.y n.z) := by
  obtain ⟨hal, hlv⟩ := hg.live k n hn
  have hmeas : promMeasure st.heap.fresh g n.id ≤ nset * st.heap.fresh + st.heap.fresh := by
    unfold promMeasure
    have := Nat.mul_le_mul_right st.heap.fresh (hg.heap.lev n.id hal.1 hal.2.1).le
    omega
  unfold promFuel at hf
  obtain ⟨att, e, hs, hm, hq⟩ := (findAll_spec hg.heap _ n hal rfl).2 fuel (fun _ => 0) (by omega)
  refine ⟨att, e, ?_, ?_⟩
  · intro s
    rcases hs s with h1 | h1
    · exact Or.inl h1
    · exact Or.inr h1.1
  · intro s hsn
    constructor
    · intro hne
      rcases hs s with h1 | h1
      · exact absurd h1 hne
      · exact h1.2
    · intro hat
      have : att s = 1 := by
        rcases hg.full k n hn s hsn hat with h1 | ⟨j, m, h1, h2, h3, h4⟩
        · exact hm s h1
        · rw [← h4]
          apply hq
          obtain ⟨d, rfl⟩ : ∃ d, j = k + d + 1 := ⟨j - k - 1, by omega⟩
          exact eqReach_of_live h hg d k n m hn h2 h3
      rw [this]
      decide

/-- The nodes between the two sentinels. -/
theorem IsLvl.mem_interior {L : List (LNode α)} (h : IsLvl mn mx junk L) (hmm : mn < mx) (n : LNode α) :
    n ∈ L.tail.dropLast ↔ n ∈ L ∧ mn < n.x ∧ n.x < mx := by
  have hlo : ∀ m ∈ L, mn ≤ m.x ∧ m.x ≤ mx := by
    intro m hm
    rcases h.bnd m hm with e | e | e
    · rw [e]; exact ⟨le_refl _, hmm.le⟩
    · rw [e]; exact ⟨hmm.le, le_refl _⟩
    · exact ⟨e.1.le, e.2.1.le⟩
  have hs := h.sorted
  have hh := h.head
  have ht := h.tail
  cases L with
  | nil => simp at hh
  | cons a t =>
    rw [List.pairwise_cons] at hs
    have ha : a = headNode mn mx junk := by
      rcases List.mem_cons.mp hh with e | e
      · exact e.symm
      · exact absurd (hs.1 _ e).1 (not_lt.mpr (hlo a (by simp)).1)
    have ht' : tailNode mn mx junk ∈ t := by
      rcases List.mem_cons.mp ht with e | e
      · rw [ha] at e
        have : (1 : ℕ) = 0 := congrArg LNode.id e
        omega
      · exact e
    rcases t.eq_nil_or_concat with e | ⟨t', b, e⟩
    · rw [e] at ht'
      simp at ht'
    · subst e
      have hs2 := hs.2
      rw [List.concat_eq_append, List.pairwise_append] at hs2
      have hb : b = tailNode mn mx junk := by
        rw [List.concat_eq_append] at ht'
        rcases List.mem_append.mp ht' with e | e
        · exact absurd (hs2.2.2 _ e b (by simp)).1 (not_lt.mpr (hlo b (by simp)).2)
        · exact (List.mem_singleton.mp e).symm
      rw [List.concat_eq_append] at *
      simp only [List.tail_cons, List.dropLast_concat]
      constructor
      · intro hn
        have hnL : n ∈ a :: (t' ++ [b]) := by simp [hn]
        refine ⟨hnL, ?_, ?_⟩
        · have := (hs.1 n (by simp [hn])).1
          rw [ha] at this
          exact this
        · have := (hs2.2.2 n hn b (by simp)).1
          rw [hb] at this
          exact this
      · rintro ⟨h1, h2, h3⟩
        rcases List.mem_cons.mp h1 with e | e
        · rw [e, ha] at h2
          exact absurd h2 (lt_irrefl _)
        · rcases List.mem_append.mp e with e | e
          · exact e
          · rw [List.mem_singleton.mp e, hb] at h3
            exact absurd h3 (lt_irrefl _)

/-- The output of a level. -/
theorem add2outputAll_spec (h : Inv3 mn mx junk nset xs P zb st) (hmm : mn < mx) (k : ℕ) :
    ∃ nodes, add2outputAll (st.outs k) (st.levels k) = some nodes ∧ nodes.Nodup ∧ ∀ n, n ∈ nodes ↔ Live mn mx st k n := by
  have hI := (h.lvl k).mem_interior hmm
  unfold add2outputAll
  rw [if_neg]
  · refine ⟨_, rfl, ?_, ?_⟩
    · rw [List.nodup_append]
      refine ⟨h.nodup k, ?_, ?_⟩
      · exact (lvl_nodup (h.lvl k).sorted).sublist ((List.dropLast_sublist _).trans (List.tail_sublist _))
      · intro a ha b hb e
        subst e
        exact h.disj k a ha ((hI a).mp hb).1
    · intro n
      rw [List.mem_append, hI]
      rfl
  · rintro ⟨h1, h2⟩
    obtain ⟨n, hn⟩ := List.exists_mem_of_ne_nil _ h2
    obtain ⟨⟨m, hm, h3, h4⟩, hb⟩ := h.oreg k n hn
    have hin := (h.lvl k).inner hm hb.2.1 hb.2.2.2 h3 h4
    have := (hI m).mpr ⟨hm, hin.1, hin.2.1⟩
    rw [h1] at this
    simp at this

end

end Moo
