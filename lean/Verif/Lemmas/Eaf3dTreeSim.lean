import Verif.Lemmas.Eaf3dTree

/-!
# The trees of `eaf3d`: `add2level` and the main loop on the nodes
-/

set_option autoImplicit false
set_option linter.unusedSectionVars false

namespace Moo

variable {α : Type*} [LinearOrder α]

/-- The levels and outputs of the model with nodes hold the sequences of the other model.  `X` are the first coordinates that occur.  The nodes that were ever made are allocated, and
the items of those that are in a level or in an output. -/
structure SimL (mn mx junk : α) (X : List α) (nset : ℕ) (st : St3 α) (t : TreeSt3 α) : Prop where
  fresh : t.nodes.fresh = st.heap.fresh + 1
  fresh2 : 2 ≤ st.heap.fresh
  lvl : ∀ k, IsLvl mn mx junk (st.levels k)
  inv : ∀ k, AvlInv (t.levels k) ((st.levels k).map LNode.num)
  out : ∀ k, OutOk (t.levels k).next (t.outs k) ((st.outs k).map LNode.num)
  nodup : ∀ k, ((st.levels k ++ st.outs k).map LNode.num).Nodup
  known : ∀ k, ∀ n ∈ st.levels k ++ st.outs k, Known t.nodes n
  real : ∀ k, ∀ n ∈ st.levels k, mn < n.x → n.x < mx → 2 ≤ n.id
  realo : ∀ k, ∀ n ∈ st.outs k, 2 ≤ n.id
  xs : ∀ k, ∀ n ∈ st.levels k, n.x ∈ X
  prom : PtrOk t.nodes st.heap.prom t.nodes.prom
  rem : PtrOk t.nodes st.heap.rem t.nodes.rem
  eql : PtrOk t.nodes st.heap.eql t.nodes.eql
  held : ∀ k, ∀ n ∈ st.levels k ++ st.outs k, Held t.nodes n
  disj : ∀ j k, j ≠ k → ∀ n ∈ st.levels j ++ st.outs j, ∀ m ∈ st.levels k ++ st.outs k, 2 ≤ n.id → n.num ≠ m.num
  lnode : ∀ n, t.live (.levelNode n) = true ↔ 3 ≤ n ∧ n < t.nodes.fresh
  litem : ∀ n, t.live (.levelItem n) = true ↔ ∃ k < nset, ∃ m ∈ st.levels k ++ st.outs k, 2 ≤ m.id ∧ m.num = n

theorem lvl_length {L : List (LNode α)} (hs : L.Pairwise LLt) {X : List α} (hx : ∀ n ∈ L, n.x ∈ X) : L.length ≤ X.length := by
  have hnd : (L.map (fun n => n.x)).Nodup := by
    rw [List.Nodup, List.pairwise_map]
    exact hs.imp (fun h => ne_of_lt h.1)
  have := (List.subperm_of_subset hnd (l₂ := X) (by
    intro a ha
    obtain ⟨n, hn, rfl⟩ := List.mem_map.1 ha
    exact hx n hn)).length_le
  simpa using this

theorem SimL.length {mn mx junk : α} {X : List α} {nset : ℕ} {st : St3 α} {t : TreeSt3 α} (h : SimL mn mx junk X nset st t) (k : ℕ) : (st.levels k).length ≤ X.length :=
  lvl_length (h.lvl k).sorted (h.xs k)

/-- `node->next`. -/
theorem nextIn_num {h : AvlHeap} {L : List (LNode α)} {n m : LNode α} (hi : AvlInv h (L.map LNode.num)) (hn : nextIn L n = some m) :
    h.next n.num = m.num ∧ n ∈ L ∧ m ∈ L := by
  unfold nextIn at hn
  split at hn
  · next a b bs hd =>
    simp only [Option.some.injEq] at hn
    subst hn
    have hsp := List.takeWhile_append_dropWhile (p := fun m : LNode α => decide (m ≠ n)) (l := L)
    rw [hd] at hsp
    have ha : a = n := by
      by_contra hne
      have : List.dropWhile (fun m : LNode α => decide (m ≠ n)) L ≠ [] := by rw [hd]; simp
      have h2 := List.head_dropWhile_not (fun m : LNode α => decide (m ≠ n)) (l := L) this
      simp only [hd, List.head_cons] at h2
      simp [hne] at h2
    subst ha
    rw [← hsp] at hi ⊢
    rw [List.map_append, List.map_cons, List.map_cons] at hi
    exact ⟨hi.next, by simp, by simp⟩
  · simp at hn

theorem Known.alloc {N : Nodes3 α} {n : LNode α} (h : Known N n) {N' : Nodes3 α} (hf : N.fresh ≤ N'.fresh) (h4 : ∀ j, j < N.fresh → N'.set j = N.set j) : Known N' n :=
  ⟨h.lt.trans_le hf, fun e => by rw [h4 _ h.lt]; exact h.set e⟩

theorem Live3.alloc_same (live : Live3) (b : Blk3) : live.alloc b b = true := by unfold Live3.alloc; rw [if_pos rfl]

theorem Live3.alloc_ne (live : Live3) {b b' : Blk3} (h : b' ≠ b) : live.alloc b b' = live b' := by unfold Live3.alloc; rw [if_neg h]

/-- A block that is allocated and released. -/
theorem Live3.free_alloc {live : Live3} {b : Blk3} (h : live b = false) : (live.alloc b).free b = some live := by
  rw [Live3.free_of (Live3.alloc_same live b)]
  refine congrArg some (funext fun b' => ?_)
  by_cases e : b' = b
  · rw [if_pos e, e, h]
  · rw [if_neg e, Live3.alloc_ne live e]

/-- `add2level` on the nodes does what `add2level` on the sequences does. -/
theorem treeAdd2level_spec {mn mx junk : α} {X : List α} {tf nset : ℕ} {st st' : St3 α} {t : TreeSt3 α} {k : ℕ} {x y z : α} {s : ℕ} {pr tn : Option (LNode α)}
    (hs : SimL mn mx junk X nset st t) (hX : X.length + 1 < 2 ^ 125) (hXf : X.length + 1 < tf) (hx : mn < x) (hx' : x < mx) (hy : mn < y) (hy' : y < mx) (hxX : x ∈ X)
    (F : Freed3 α) (hpr : ∀ n, pr = some n → Known t.nodes n ∧ 2 ≤ n.id) (he : add2level nset st k x y z s pr = some (st', tn)) :
    ∃ t', treeAdd2level tf F nset t k x y z s (optNum pr) = some (t', optNum tn) ∧ SimL mn mx junk X nset st' t' ∧
      t'.sets = t.sets ∧ t'.sx = t.sx ∧ t'.sy = t.sy ∧ t'.sfresh = t.sfresh ∧ st'.sets = st.sets ∧ (∀ n, Known t.nodes n → Known t'.nodes n) ∧
      (∀ m, tn = some m → Known t'.nodes m ∧ 2 ≤ m.id) ∧ (∀ b, (∀ n, b ≠ .levelNode n) → (∀ n, b ≠ .levelItem n) → t'.live b = t.live b) ∧
      (∀ j, j ≠ k → st'.levels j = st.levels j) := by
  have hk : k < nset := by
    by_contra hk
    unfold add2level at he
    rw [if_pos hk] at he
    simp at he
  have hL := hs.lvl k
  have hlen := hs.length k
  -- the level remains a level
  have hlvl' : IsLvl mn mx junk (st'.levels k) := by
    by_cases hreg : Reg (st.levels k) x y
    · rw [add2level_dom hk hL hy' hreg] at he
      simp only [Option.some.injEq, Prod.mk.injEq] at he
      rw [← he.1]; exact hL
    · obtain ⟨st1, h1, h2⟩ := add2level_new hk hL hx hx' hy hy' hreg z s pr
      rw [h1] at he
      simp only [Option.some.injEq, Prod.mk.injEq] at he
      rw [← he.1]; exact h2.lvl
  have hsplit := levelSplit_append (st.levels k) x y
  have hne : st.levels k ≠ [] := fun e => by have := hL.head; rw [e] at this; simp at this
  have hprev := treePrevnode_eq (tf := tf) (N := t.nodes) x y (hs.inv k) hne (by omega) hL.sorted (fun n hn => hs.held k n (List.mem_append_left _ hn))
  unfold add2level at he
  rw [if_neg (not_not.2 hk)] at he
  unfold treeAdd2level
  rw [if_neg (not_not.2 hk), hprev]
  generalize hsp : levelSplit (st.levels k) x y = sp at he hsplit
  obtain ⟨pre, post⟩ := sp
  dsimp only at he hsplit ⊢
  rcases List.eq_nil_or_concat pre with rfl | ⟨pre, b, rfl⟩
  · simp at he
  rw [List.concat_eq_append] at *
  rw [List.map_append, List.map_cons, List.map_nil, List.getLast?_concat]
  cases post with
  | nil => cases pre <;> simp at he
  | cons aux post =>
    have hinv := hs.inv k
    have hLe : st.levels k = pre ++ b :: aux :: post := by rw [← hsplit]; simp
    rw [hLe, List.map_append, List.map_cons, List.map_cons] at hinv
    dsimp only
    rw [hinv.next, List.headD_cons, deref_of_ne aux.num_ne]
    dsimp only
    have hkn : ∀ n ∈ st.levels k, Known t.nodes n := fun n hn => hs.known k n (List.mem_append_left _ hn)
    have hkh : ∀ n ∈ st.levels k, Held t.nodes n := fun n hn => hs.held k n (List.mem_append_left _ hn)
    rw [(hkh aux (by rw [hLe]; simp)).x]
    have he' : (if aux.x > x then
        match levelRemove ⟨st.heap.fresh, x, y, z, s⟩ (pre ++ [b]).reverse (st.outs k) (upd st.heap.rem st.heap.fresh none) with
        | none => none
        | some (left, out, rem) =>
          some ((⟨st.sets, upd st.levels k (left.reverse ++ ⟨st.heap.fresh, x, y, z, s⟩ :: aux :: post), upd st.outs k out,
            ⟨st.heap.fresh + 1, upd st.heap.prom st.heap.fresh pr, rem, upd st.heap.eql st.heap.fresh none⟩⟩ : St3 α), some (⟨st.heap.fresh, x, y, z, s⟩ : LNode α))
      else some (st, none)) = some (st', tn) := by
      rw [← he]
      cases pre <;> rfl
    clear he
    by_cases hgt : aux.x > x
    · rw [if_pos hgt] at he' ⊢
      set nn : LNode α := ⟨st.heap.fresh, x, y, z, s⟩ with hnn
      split at he'
      · simp at he'
      next left out rem hrm =>
      simp only [Option.some.injEq, Prod.mk.injEq] at he'
      obtain ⟨rfl, rfl⟩ := he'
      have hnum : nn.num = t.nodes.fresh := hs.fresh.symm
      set N : Nodes3 α := ⟨t.nodes.fresh + 1, upd t.nodes.x t.nodes.fresh x, upd t.nodes.y t.nodes.fresh y, upd t.nodes.z t.nodes.fresh z, upd t.nodes.set t.nodes.fresh s,
        upd t.nodes.prom t.nodes.fresh (optNum pr), upd t.nodes.rem t.nodes.fresh 0, upd t.nodes.eql t.nodes.fresh 0⟩ with hN
      have hmono : ∀ n, Known t.nodes n → Known N n := by
        intro n hn
        exact hn.alloc (Nat.le_succ _) (fun j hj => upd_ne _ _ (by omega))
      have hmonoH : ∀ n, Known t.nodes n → Held t.nodes n → Held N n := by
        intro n hn hh
        have hlt := hn.lt
        exact hh.congr ⟨upd_ne _ _ (by omega), upd_ne _ _ (by omega), upd_ne _ _ (by omega)⟩
      have hnnK : Known N nn := by
        refine ⟨by rw [hnum]; exact Nat.lt_succ_self _, fun _ => ?_⟩; rw [hnum]; exact upd_same ..
      have hnnH : Held N nn := by
        refine ⟨?_, ?_, fun _ => ?_⟩ <;> rw [hnum] <;> exact upd_same ..
      have hptr : ∀ (f : ℕ → Option (LNode α)) (g : ℕ → ℕ) (v : Option (LNode α)), PtrOk t.nodes f g → (∀ n, v = some n → Known t.nodes n ∧ 2 ≤ n.id) →
          PtrOk N (upd f st.heap.fresh v) (upd g t.nodes.fresh (optNum v)) := by
        intro f g v hfg hv i h1 h2
        have h2' : i + 1 < t.nodes.fresh + 1 := h2
        by_cases e : i = st.heap.fresh
        · subst e
          rw [upd_same, hs.fresh, upd_same]
          exact ⟨rfl, fun n hn => ⟨hmono n (hv n hn).1, (hv n hn).2⟩⟩
        · have hfr := hs.fresh
          rw [upd_ne _ _ e, upd_ne _ _ (by omega)]
          obtain ⟨a1, a2⟩ := hfg i h1 (by omega)
          exact ⟨a1, fun n hn => ⟨hmono n (a2 n hn).1, (a2 n hn).2⟩⟩
      have hnot : nn.num ∉ (st.levels k ++ st.outs k).map LNode.num := by
        intro hm
        obtain ⟨m, hm, e⟩ := List.mem_map.1 hm
        have := (hs.known k m hm).lt
        rw [e, hnum] at this
        exact lt_irrefl _ this
      have hnotL : nn.num ∉ (st.levels k).map LNode.num := fun hm => hnot (by rw [List.map_append]; exact List.mem_append_left _ hm)
      have hnotO : nn.num ∉ (st.outs k).map LNode.num := fun hm => hnot (by rw [List.map_append]; exact List.mem_append_right _ hm)
      have hlenm : (pre.map LNode.num ++ b.num :: aux.num :: post.map LNode.num).length = (st.levels k).length := by rw [hLe]; simp
      have hLm : (st.levels k).map LNode.num = pre.map LNode.num ++ b.num :: aux.num :: post.map LNode.num := by rw [hLe]; simp
      have hins := insertAfter_spec (fuel := tf) (rec := 3) hinv (by rw [← hLm]; exact hnotL) nn.num_ne (by rw [hlenm]; omega) (by rw [hlenm]; omega) (by omega)
      have hnxf : ∀ j, j ≠ nn.num → j ≠ b.num → (avlInsertAfter 3 tf (t.levels k) b.num nn.num).next j = (t.levels k).next j :=
        fun j h1 h2 => insertAfter_next hinv (by rw [← hLm]; exact hnotL) (by omega) h1 h2
      have hins' : AvlInv (avlInsertAfter 3 tf (t.levels k) b.num nn.num) (((pre ++ [b]).reverse.reverse ++ nn :: aux :: post).map LNode.num) := by
        rw [List.reverse_reverse]; simpa using hins
      have hpv : (avlInsertAfter 3 tf (t.levels k) b.num nn.num).prev nn.num = ((pre ++ [b]).reverse.map LNode.num).headD 0 := by
        have e : pre.map LNode.num ++ b.num :: nn.num :: aux.num :: post.map LNode.num = (pre.map LNode.num ++ [b.num]) ++ nn.num :: aux.num :: post.map LNode.num := by simp
        rw [e] at hins
        rw [hins.prev, getLastD_append _ b.num [] 0 0]
        simp
      have hdis : ∀ j ∈ (st.levels k).map LNode.num, j ∉ (st.outs k).map LNode.num := by
        intro j h1 h2
        have := hs.nodup k
        rw [List.map_append] at this
        exact (List.nodup_append.1 this).2.2 j h1 j h2 rfl
      have hout : OutOk (avlInsertAfter 3 tf (t.levels k) b.num nn.num).next (t.outs k) ((st.outs k).map LNode.num) := by
        refine (hs.out k).frame (fun j hj => hnxf j (fun e => hnotO (e ▸ hj)) (fun e => ?_))
        refine hdis j ?_ hj
        rw [e, hLe]; simp
      have hperm : ((pre ++ [b]).reverse.reverse ++ nn :: aux :: post ++ st.outs k).Perm (nn :: (st.levels k ++ st.outs k)) := by
        rw [List.reverse_reverse, hLe]
        simp only [List.append_assoc, List.cons_append, List.nil_append]
        have e1 : pre ++ b :: nn :: aux :: (post ++ st.outs k) = (pre ++ [b]) ++ nn :: (aux :: (post ++ st.outs k)) := by simp
        have e2 : pre ++ b :: aux :: (post ++ st.outs k) = (pre ++ [b]) ++ (aux :: (post ++ st.outs k)) := by simp
        rw [e1, e2]
        exact List.perm_middle
      have hnd : (((pre ++ [b]).reverse.reverse ++ nn :: aux :: post ++ st.outs k).map LNode.num).Nodup := by
        rw [(hperm.map LNode.num).nodup_iff, List.map_cons, List.nodup_cons]
        exact ⟨hnot, hs.nodup k⟩
      have hpre : ∀ n ∈ (pre ++ [b]).reverse, n ∈ st.levels k := by
        intro n hn
        rw [List.mem_reverse] at hn
        rw [← hsplit]; exact List.mem_append_left _ hn
      have hprey : ∀ n ∈ (pre ++ [b]).reverse, y ≤ n.y := by
        intro n hn
        rw [List.mem_reverse] at hn
        have := levelSplit_eq hL.sorted x y
        rw [hsp] at this
        have h1 := congrArg Prod.fst this
        dsimp only at h1
        rw [h1] at hn
        have := (List.mem_filter.1 hn).2
        simp only [Above, decide_eq_true_eq] at this
        rcases this with h | h
        · exact h.le
        · exact h.1.ge
      have hreal : ∀ n ∈ (pre ++ [b]).reverse, nn.x ≤ n.x → 2 ≤ n.id := by
        intro n hn hxn
        rcases hL.bnd n (hpre n hn) with e | e | h
        · exfalso
          rw [e] at hxn
          exact absurd hxn (not_le.2 hx)
        · exfalso
          have := hprey n hn
          rw [e] at this
          exact absurd this (not_le.2 hy)
        · exact hs.real k n (hpre n hn) h.1 h.2.1
      have hlenp : ((pre ++ [b]).reverse.reverse ++ nn :: aux :: post).length = (st.levels k).length + 1 := by
        rw [List.reverse_reverse, hLe]; simp; omega
      have hremN : PtrOk N (upd st.heap.rem st.heap.fresh none) N.rem := hptr _ _ none hs.rem (by simp)
      have hfl : (pre ++ [b]).reverse.length < tf := by
        have : (pre ++ [b]).reverse.length ≤ (st.levels k).length := by rw [hLe]; simp
        omega
      set live1 : Live3 := (t.live.alloc (.levelItem t.nodes.fresh)).alloc (.levelNode t.nodes.fresh) with hlive1
      have hfr := hs.fresh
      have hlv : ∀ n ∈ (pre ++ [b]).reverse, 2 ≤ n.id → live1 (.levelItem n.num) = true := by
        intro n hn hn2
        have hlt := (hkn n (hpre n hn)).lt
        rw [hlive1, Live3.alloc_ne _ (by simp), Live3.alloc_ne _ (by simp; omega), hs.litem]
        exact ⟨k, hk, n, List.mem_append_left _ (hpre n hn), hn2, rfl⟩
      obtain ⟨h', o', N', removed', live', rm, q1, q2, q3, q4, r1, r3, q5, q6, q7, q8, q9, q10⟩ := treeLevelRemove_spec (tf := tf) (F := F) (k := k) hs.fresh2 (aux :: post)
        (pre ++ [b]).reverse tf _ (t.outs k) N t.removed live1
        (st.outs k) _ left out rem hrm hins' hout hnd hnnK hnnH (fun n hn => hmonoH n (hkn n (hpre n hn)) (hkh n (hpre n hn))) hreal hlv hfl (by rw [hlenp]; omega)
        (by rw [hlenp]; omega) hremN
      rw [hnum] at q1 hpv
      dsimp only
      rw [hpv, q1]
      dsimp only
      obtain ⟨rm', r1', -, r3', r4', -⟩ := levelRemove_form hrm
      have hrmeq : rm' = rm := List.append_cancel_right (r1'.symm.trans r1)
      rw [hrmeq] at r4'
      have r4 := r4'
      clear r4' r3' r1' hrmeq rm'
      have hKN' : ∀ n, Known N n → Known N' n := fun n hn => ⟨by rw [q5]; exact hn.lt, by rw [q6]; exact hn.set⟩
      have hPN' : ∀ f g, PtrOk N f g → PtrOk N' f g := fun f g h => h.congr q5 q6
      have hrmL : ∀ n ∈ rm, n ∈ st.levels k ∧ 2 ≤ n.id := by
        intro n hm
        have hm' : n ∈ (pre ++ [b]).reverse := by rw [r1]; exact List.mem_append_left _ hm
        exact ⟨hpre n hm', hreal n hm' (r4 n hm)⟩
      have hrelL : ∀ j ∈ releasedNums nn rm, ∃ n ∈ st.levels k, 2 ≤ n.id ∧ n.num = j := by
        intro j hj
        obtain ⟨n, hn, rfl⟩ := List.mem_map.1 hj
        have := hrmL n (List.mem_filter.1 hn).1
        exact ⟨n, this.1, this.2, rfl⟩
      have hsubL : (left.reverse ++ nn :: aux :: post).Sublist ((pre ++ [b]).reverse.reverse ++ nn :: aux :: post) := by
        refine List.Sublist.append_right ?_ _
        rw [r1]
        exact (List.sublist_append_right rm left).reverse
      have hmemL : ∀ n ∈ left.reverse ++ nn :: aux :: post, n = nn ∨ n ∈ st.levels k := by
        intro n hn
        have := hsubL.subset hn
        rw [List.reverse_reverse] at this
        rcases List.mem_append.1 this with h | h
        · exact Or.inr (by rw [← hsplit]; exact List.mem_append_left _ h)
        · rcases List.mem_cons.1 h with h | h
          · exact Or.inl h
          · exact Or.inr (by rw [← hsplit]; exact List.mem_append_right _ h)
      have hmemO : ∀ n ∈ out, n ∈ st.outs k ∨ (n ∈ st.levels k ∧ 2 ≤ n.id) := by
        intro n hn
        rw [r3] at hn
        rcases List.mem_append.1 hn with h | h
        · exact Or.inl h
        · exact Or.inr (hrmL n (List.mem_filter.1 h).1)
      have hmemA : ∀ n ∈ left.reverse ++ nn :: aux :: post ++ out, n = nn ∨ n ∈ st.levels k ++ st.outs k := by
        intro n hn
        rcases List.mem_append.1 hn with h | h
        · exact (hmemL n h).imp_right (fun h => List.mem_append_left _ h)
        · exact Or.inr (List.mem_append.2 ((hmemO n h).elim Or.inr (fun h => Or.inl h.1)))
      have hp : ((pre ++ [b]).reverse.reverse ++ nn :: aux :: post ++ st.outs k).Perm (left.reverse ++ nn :: aux :: post ++ (st.outs k ++ rm)) := by
        rw [r1, List.reverse_append]
        have : (left.reverse ++ rm.reverse ++ nn :: aux :: post ++ st.outs k).Perm (left.reverse ++ (nn :: aux :: post ++ st.outs k ++ rm)) := by
          rw [List.append_assoc, List.append_assoc, List.append_assoc]
          refine List.Perm.append_left _ ?_
          refine (List.perm_append_comm).trans ?_
          rw [List.append_assoc]
          exact (List.Perm.append_left _ (List.Perm.append_left _ (List.reverse_perm rm))).trans (by rw [← List.append_assoc])
        refine this.trans ?_
        simp
      have hnd2 := (hp.map LNode.num).nodup_iff.1 hnd
      have hndNew : ((left.reverse ++ nn :: aux :: post ++ out).map LNode.num).Nodup := by
        refine hnd2.sublist (List.Sublist.map _ (List.Sublist.append_left ?_ _))
        rw [r3]
        exact List.Sublist.append_left List.filter_sublist _
      -- the items that are released are those of the nodes that are no longer in the level or in the output
      have hkeep : ∀ m ∈ left.reverse ++ nn :: aux :: post ++ out, m.num ∉ releasedNums nn rm := by
        intro m hm hmr
        obtain ⟨n, hn, e⟩ := List.mem_map.1 hmr
        obtain ⟨hn1, hn2⟩ := List.mem_filter.1 hn
        have hmfull : m ∈ left.reverse ++ nn :: aux :: post ++ (st.outs k ++ rm) := by
          rcases List.mem_append.1 hm with h | h
          · exact List.mem_append_left _ h
          · rw [r3] at h
            refine List.mem_append_right _ ?_
            rcases List.mem_append.1 h with h | h
            · exact List.mem_append_left _ h
            · exact List.mem_append_right _ (List.mem_filter.1 h).1
        have hnfull : n ∈ left.reverse ++ nn :: aux :: post ++ (st.outs k ++ rm) := List.mem_append_right _ (List.mem_append_right _ hn1)
        have enm : n = m := List.inj_on_of_nodup_map hnd2 hnfull hmfull e
        subst enm
        have hndA := hnd2.of_map
        rw [← List.append_assoc] at hndA
        have hd := (List.nodup_append.1 hndA).2.2
        rcases List.mem_append.1 hm with h | h
        · exact hd n (List.mem_append_left _ h) n hn1 rfl
        · rw [r3] at h
          rcases List.mem_append.1 h with h | h
          · exact hd n (List.mem_append_right _ h) n hn1 rfl
          · have := (List.mem_filter.1 h).2
            simp only [decide_eq_true_eq] at this
            simp [this] at hn2
      have hstay : ∀ m ∈ st.levels k ++ st.outs k, m.num ∉ releasedNums nn rm → m ∈ left.reverse ++ nn :: aux :: post ++ out := by
        intro m hm hmr
        have hm1 : m ∈ left.reverse ++ nn :: aux :: post ++ (st.outs k ++ rm) := by
          rw [← hp.mem_iff, hperm.mem_iff]
          exact List.mem_cons_of_mem _ hm
        rcases List.mem_append.1 hm1 with h | h
        · exact List.mem_append_left _ h
        · refine List.mem_append_right _ ?_
          rw [r3]
          rcases List.mem_append.1 h with h | h
          · exact List.mem_append_left _ h
          · refine List.mem_append_right _ (List.mem_filter.2 ⟨h, ?_⟩)
            by_contra hz
            exact hmr (List.mem_map.2 ⟨m, List.mem_filter.2 ⟨h, by simpa using hz⟩, rfl⟩)
      have hother : ∀ j, j ≠ k → ∀ m ∈ st.levels j ++ st.outs j, m.num ∉ releasedNums nn rm := by
        intro j hj m hm hmr
        obtain ⟨n, hn, hn2, e⟩ := hrelL _ hmr
        exact hs.disj k j (fun e => hj e.symm) n (List.mem_append_left _ hn) m hm hn2 e
      refine ⟨_, congrArg some (Prod.ext rfl hnum.symm), ?_, rfl, rfl, rfl, rfl, rfl, fun n hn => hKN' n (hmono n hn), ?_, ?_, fun j hj => upd_ne _ _ hj⟩
      · refine ⟨?_, Nat.le_succ_of_le hs.fresh2, ?_, ?_, ?_, ?_, ?_, ?_, ?_, ?_, ?_, ?_, ?_, ?_, ?_, ?_, ?_⟩
        · show N'.fresh = st.heap.fresh + 1 + 1
          rw [q5, ← hs.fresh]
        · intro j
          by_cases e : j = k
          · subst e; exact hlvl'
          · show IsLvl mn mx junk (upd st.levels k _ j)
            rw [upd_ne _ _ e]; exact hs.lvl j
        · intro j
          show AvlInv (upd t.levels k h' j) ((upd st.levels k _ j).map LNode.num)
          by_cases e : j = k
          · subst e; rw [upd_same, upd_same]; exact q2
          · rw [upd_ne _ _ e, upd_ne _ _ e]; exact hs.inv j
        · intro j
          show OutOk (upd t.levels k h' j).next (upd t.outs k o' j) ((upd st.outs k out j).map LNode.num)
          by_cases e : j = k
          · subst e; rw [upd_same, upd_same, upd_same]; exact q3
          · rw [upd_ne _ _ e, upd_ne _ _ e, upd_ne _ _ e]; exact hs.out j
        · intro j
          show ((upd st.levels k _ j ++ upd st.outs k out j).map LNode.num).Nodup
          by_cases e : j = k
          · subst e; rw [upd_same, upd_same]; exact hndNew
          · rw [upd_ne _ _ e, upd_ne _ _ e]; exact hs.nodup j
        · intro j n hn
          change n ∈ upd st.levels k _ j ++ upd st.outs k out j at hn
          refine hKN' n ?_
          by_cases e : j = k
          · subst e
            rw [upd_same, upd_same] at hn
            rcases hmemA n hn with rfl | h
            · exact hnnK
            · exact hmono n (hs.known j n h)
          · rw [upd_ne _ _ e, upd_ne _ _ e] at hn
            exact hmono n (hs.known j n hn)
        · intro j n hn h1 h2
          change n ∈ upd st.levels k _ j at hn
          by_cases e : j = k
          · subst e
            rw [upd_same] at hn
            rcases hmemL n hn with rfl | h
            · exact hs.fresh2
            · exact hs.real j n h h1 h2
          · rw [upd_ne _ _ e] at hn
            exact hs.real j n hn h1 h2
        · intro j n hn
          change n ∈ upd st.outs k out j at hn
          by_cases e : j = k
          · subst e
            rw [upd_same] at hn
            rcases hmemO n hn with h | h
            · exact hs.realo j n h
            · exact h.2
          · rw [upd_ne _ _ e] at hn
            exact hs.realo j n hn
        · intro j n hn
          change n ∈ upd st.levels k _ j at hn
          by_cases e : j = k
          · subst e
            rw [upd_same] at hn
            rcases hmemL n hn with rfl | h
            · exact hxX
            · exact hs.xs j n h
          · rw [upd_ne _ _ e] at hn
            exact hs.xs j n hn
        · show PtrOk N' _ N'.prom
          rw [q7]; exact hPN' _ _ (hptr _ _ pr hs.prom hpr)
        · exact q4
        · show PtrOk N' _ N'.eql
          rw [q8]; exact hPN' _ _ (hptr _ _ none hs.eql (by simp))
        · intro j n hn
          change n ∈ upd st.levels k _ j ++ upd st.outs k out j at hn
          show Held N' n
          by_cases e : j = k
          · subst e
            rw [upd_same, upd_same] at hn
            refine Held.congr ?_ (q9 _ (hkeep n hn))
            rcases hmemA n hn with rfl | h
            · exact hnnH
            · exact hmonoH n (hs.known j n h) (hs.held j n h)
          · rw [upd_ne _ _ e, upd_ne _ _ e] at hn
            exact (hmonoH n (hs.known j n hn) (hs.held j n hn)).congr (q9 _ (hother j e n hn))
        · intro j j' hjj n hn m hm hn2
          change n ∈ upd st.levels k _ j ++ upd st.outs k out j at hn
          change m ∈ upd st.levels k _ j' ++ upd st.outs k out j' at hm
          by_cases e : j = k
          · subst e
            rw [upd_same, upd_same] at hn
            rw [upd_ne _ _ (fun e => hjj e.symm), upd_ne _ _ (fun e => hjj e.symm)] at hm
            rcases hmemA n hn with rfl | h
            · have := (hs.known j' m hm).lt
              omega
            · exact hs.disj j j' hjj n h m hm hn2
          · rw [upd_ne _ _ e, upd_ne _ _ e] at hn
            by_cases e' : j' = k
            · subst e'
              rw [upd_same, upd_same] at hm
              rcases hmemA m hm with rfl | h
              · have := (hs.known j n hn).lt
                omega
              · exact hs.disj j j' hjj n hn m h hn2
            · rw [upd_ne _ _ e', upd_ne _ _ e'] at hm
              exact hs.disj j j' hjj n hn m hm hn2
        · intro n
          show live' (.levelNode n) = true ↔ 3 ≤ n ∧ n < N'.fresh
          have hf2 := hs.fresh2
          rw [q10, q5]
          show (live1 (.levelNode n) = true ∧ _) ↔ 3 ≤ n ∧ n < t.nodes.fresh + 1
          rw [hlive1]
          by_cases e : n = t.nodes.fresh
          · subst e
            rw [Live3.alloc_same]
            simp
            omega
          · rw [Live3.alloc_ne _ (by simpa using e), Live3.alloc_ne _ (by simp), hs.lnode]
            simp
            omega
        · intro n
          show live' (.levelItem n) = true ↔ _
          rw [q10]
          have hrn : (∀ j ∈ releasedNums nn rm, Blk3.levelItem n ≠ .levelItem j) ↔ n ∉ releasedNums nn rm := by
            constructor
            · exact fun h hm => h n hm rfl
            · intro h j hj e
              simp only [Blk3.levelItem.injEq] at e
              exact h (e ▸ hj)
          rw [hrn]
          constructor
          · rintro ⟨h1, h2⟩
            by_cases e : n = t.nodes.fresh
            · refine ⟨k, hk, nn, ?_, hs.fresh2, by rw [e]; exact hnum⟩
              show nn ∈ upd st.levels k _ k ++ upd st.outs k out k
              rw [upd_same, upd_same]
              simp
            · rw [hlive1, Live3.alloc_ne _ (by simp), Live3.alloc_ne _ (by simpa using e), hs.litem] at h1
              obtain ⟨j, hj, m, hm, hm2, rfl⟩ := h1
              refine ⟨j, hj, m, ?_, hm2, rfl⟩
              show m ∈ upd st.levels k _ j ++ upd st.outs k out j
              by_cases ej : j = k
              · subst ej
                rw [upd_same, upd_same]
                exact hstay m hm h2
              · rw [upd_ne _ _ ej, upd_ne _ _ ej]; exact hm
          · rintro ⟨j, hj, m, hm, hm2, rfl⟩
            change m ∈ upd st.levels k _ j ++ upd st.outs k out j at hm
            have hold : ∀ m ∈ st.levels j ++ st.outs j, 2 ≤ m.id → live1 (.levelItem m.num) = true := by
              intro m hm hm2
              have hlt := (hs.known j m hm).lt
              rw [hlive1, Live3.alloc_ne _ (by simp), Live3.alloc_ne _ (by simp; omega), hs.litem]
              exact ⟨j, hj, m, hm, hm2, rfl⟩
            by_cases ej : j = k
            · subst ej
              rw [upd_same, upd_same] at hm
              refine ⟨?_, hkeep m hm⟩
              rcases hmemA m hm with rfl | h
              · rw [hlive1, hnum, Live3.alloc_ne _ (by simp), Live3.alloc_same]
              · exact hold m h hm2
            · rw [upd_ne _ _ ej, upd_ne _ _ ej] at hm
              exact ⟨hold m hm hm2, hother j ej m hm⟩
      · intro m hm
        simp only [Option.some.injEq] at hm
        subst hm
        exact ⟨hKN' _ hnnK, hs.fresh2⟩
      · intro b hb1 hb2
        show live' b = t.live b
        have h1 : live1 b = t.live b := by rw [hlive1, Live3.alloc_ne _ (hb1 _), Live3.alloc_ne _ (hb2 _)]
        rw [← h1, Bool.eq_iff_iff, q10]
        exact and_iff_left (fun j _ => hb2 j)
    · rw [if_neg hgt] at he' ⊢
      simp only [Option.some.injEq, Prod.mk.injEq] at he'
      obtain ⟨rfl, rfl⟩ := he'
      have hfree : t.live (.levelItem t.nodes.fresh) = false := by
        rw [← Bool.not_eq_true, hs.litem]
        rintro ⟨j, -, m, hm, -, e⟩
        have := (hs.known j m hm).lt
        omega
      rw [Live3.free_alloc hfree]
      exact ⟨t, rfl, hs, rfl, rfl, rfl, rfl, rfl, fun n hn => hn, by simp, fun _ _ _ => rfl, fun _ _ => rfl⟩

/-- What the loops over the levels do not touch, and what they keep of the table of the nodes; the levels up to `m` do not change. -/
structure Frame3 (m : ℕ) (st st' : St3 α) (t t' : TreeSt3 α) : Prop where
  sets : t'.sets = t.sets
  sx : t'.sx = t.sx
  sy : t'.sy = t.sy
  sfresh : t'.sfresh = t.sfresh
  lsets : st'.sets = st.sets
  known : ∀ n, Known t.nodes n → Known t'.nodes n
  live : ∀ b, (∀ n, b ≠ .levelNode n) → (∀ n, b ≠ .levelItem n) → t'.live b = t.live b
  keep : ∀ j ≤ m, st'.levels j = st.levels j

theorem Frame3.rfl' (m : ℕ) (st : St3 α) (t : TreeSt3 α) : Frame3 m st st t t := ⟨rfl, rfl, rfl, rfl, rfl, fun _ h => h, fun _ _ _ => rfl, fun _ _ => rfl⟩

theorem Frame3.trans {m : ℕ} {st st1 st2 : St3 α} {t t1 t2 : TreeSt3 α} (h : Frame3 m st st1 t t1) (h' : Frame3 m st1 st2 t1 t2) : Frame3 m st st2 t t2 :=
  ⟨h'.sets.trans h.sets, h'.sx.trans h.sx, h'.sy.trans h.sy, h'.sfresh.trans h.sfresh, h'.lsets.trans h.lsets, fun n hn => h'.known n (h.known n hn),
    fun b h1 h2 => (h'.live b h1 h2).trans (h.live b h1 h2), fun j hj => (h'.keep j hj).trans (h.keep j hj)⟩

/-- `node->equal = tnode`. -/
theorem setEqual_sim {mn mx junk : α} {X : List α} {nset : ℕ} {st : St3 α} {t : TreeSt3 α} (hs : SimL mn mx junk X nset st t) {n m : LNode α} (hm : Known t.nodes m ∧ 2 ≤ m.id) (i : ℕ) :
    SimL mn mx junk X nset (setEqual st n m) { t with nodes := { t.nodes with eql := upd t.nodes.eql n.num m.num } } ∧
    Frame3 i st (setEqual st n m) t { t with nodes := { t.nodes with eql := upd t.nodes.eql n.num m.num } } := by
  have hK : ∀ a, Known t.nodes a → Known ({ t.nodes with eql := upd t.nodes.eql n.num m.num } : Nodes3 α) a := fun a h => ⟨h.lt, h.set⟩
  have hP : ∀ f g, PtrOk t.nodes f g → PtrOk ({ t.nodes with eql := upd t.nodes.eql n.num m.num } : Nodes3 α) f g := by
    intro f g h i h1 h2
    obtain ⟨a1, a2⟩ := h i h1 h2
    exact ⟨a1, fun b hb => ⟨hK b (a2 b hb).1, (a2 b hb).2⟩⟩
  refine ⟨⟨hs.fresh, hs.fresh2, hs.lvl, hs.inv, hs.out, hs.nodup, fun k a ha => hK a (hs.known k a ha), hs.real, hs.realo, hs.xs, hP _ _ hs.prom, hP _ _ hs.rem, ?_,
    fun k a ha => ⟨(hs.held k a ha).x, (hs.held k a ha).y, (hs.held k a ha).z⟩, hs.disj, hs.lnode, hs.litem⟩, ⟨rfl, rfl, rfl, rfl, rfl, hK, fun _ _ _ => rfl, fun _ _ => rfl⟩⟩
  exact hP _ _ (hs.eql.upd n.id (v := some m) (fun a ha => by simp only [Option.some.injEq] at ha; subst ha; exact hm))

theorem linkEqual_sim {mn mx junk : α} {X : List α} {nset : ℕ} {st : St3 α} {t : TreeSt3 α} (hs : SimL mn mx junk X nset st t) {n : LNode α} {tn : Option (LNode α)}
    (hm : ∀ m, tn = some m → Known t.nodes m ∧ 2 ≤ m.id) {c c' : Prop} [Decidable c] [Decidable c'] (hc : c ↔ c') (i : ℕ) :
    SimL mn mx junk X nset (linkEqual st n tn c) (treeLinkEqual t n.num (optNum tn) c') ∧ Frame3 i st (linkEqual st n tn c) t (treeLinkEqual t n.num (optNum tn) c') := by
  unfold linkEqual treeLinkEqual
  cases tn with
  | none => rw [if_neg (by simp [optNum])]; exact ⟨hs, Frame3.rfl' i st t⟩
  | some m =>
    dsimp only
    by_cases h : c
    · rw [if_pos h, if_pos ⟨m.num_ne, hc.1 h⟩]
      exact setEqual_sim hs (hm m rfl) i
    · rw [if_neg h, if_neg (fun h' => h (hc.2 h'.2))]
      exact ⟨hs, Frame3.rfl' i st t⟩

/-- `aux[k]` of the two models. -/
def CurRel (mn mx : α) (X : List α) (N : Nodes3 α) : Cur α → TreeCur α → Prop
  | .inter x y nx pr, .inter x' y' nx' pr' => x' = x ∧ y' = y ∧ nx' = nx.num ∧ pr' = pr.num ∧ (x ∈ X ∧ mn < x ∧ y < mx) ∧
      (Known N nx ∧ nx.x ∈ X ∧ mn < nx.x ∧ nx.y < mx) ∧ Known N pr ∧ 2 ≤ pr.id
  | .node n, .node m => m = n.num ∧ Known N n ∧ n.x ∈ X ∧ mn < n.x ∧ n.y < mx
  | _, _ => False

theorem CurRel.mono {mn mx : α} {X : List α} {N N' : Nodes3 α} (hm : ∀ n, Known N n → Known N' n) {c : Cur α} {d : TreeCur α} (h : CurRel mn mx X N c d) :
    CurRel mn mx X N' c d := by
  cases c <;> cases d
  · obtain ⟨h1, h2, h3, h4, h5, h6, h7, h8⟩ := h
    exact ⟨h1, h2, h3, h4, h5, ⟨hm _ h6.1, h6.2⟩, hm _ h7, h8⟩
  · exact h
  · exact h
  · obtain ⟨h1, h2, h3⟩ := h
    exact ⟨h1, hm _ h2, h3⟩

theorem CurRel.xy {mn mx : α} {X : List α} {N : Nodes3 α} {c : Cur α} {d : TreeCur α} (h : CurRel mn mx X N c d) (hh : Held N c.promoter) :
    d.x N = c.x ∧ d.y N = c.y ∧ d.promoter = c.promoter.num ∧ c.x ∈ X ∧ mn < c.x ∧ c.y < mx := by
  cases c <;> cases d
  · obtain ⟨h1, h2, h3, h4, h5, -⟩ := h
    exact ⟨h1, h2, h4, h5⟩
  · exact h.elim
  · exact h.elim
  · obtain ⟨rfl, h2, h3⟩ := h
    exact ⟨hh.x, hh.y, rfl, h3⟩

/-- The item of the node that `aux[k]` refers to is allocated. -/
theorem SimL.cur {mn mx junk : α} {X : List α} {nset : ℕ} {st : St3 α} {t : TreeSt3 α} (hs : SimL mn mx junk X nset st t) {k : ℕ} {c : Cur α} (hv : c.valid (st.levels k)) :
    Held t.nodes c.promoter := hs.held k _ (List.mem_append_left _ hv)

/-- The promoter of a node of the level that is not a sentinel. -/
theorem CurRel.prom {mn mx junk : α} {X : List α} {nset : ℕ} {st : St3 α} {t : TreeSt3 α} (hs : SimL mn mx junk X nset st t) {k : ℕ} {c : Cur α} {d : TreeCur α}
    (h : CurRel mn mx X t.nodes c d) (hv : c.valid (st.levels k)) (hx : c.x < mx) : Known t.nodes c.promoter ∧ 2 ≤ c.promoter.id := by
  cases c <;> cases d
  · exact h.2.2.2.2.2.2
  · exact h.elim
  · exact h.elim
  · exact ⟨h.2.1, hs.real k _ hv h.2.2.2.1 hx⟩

def AuxRel (mn mx : α) (X : List α) (N : Nodes3 α) (a : ℕ → Option (Cur α)) (b : ℕ → Option (TreeCur α)) : Prop :=
  ∀ k c, a k = some c → ∃ d, b k = some d ∧ CurRel mn mx X N c d

theorem AuxRel.mono {mn mx : α} {X : List α} {N N' : Nodes3 α} (hm : ∀ n, Known N n → Known N' n) {a : ℕ → Option (Cur α)} {b : ℕ → Option (TreeCur α)}
    (h : AuxRel mn mx X N a b) : AuxRel mn mx X N' a b := by
  intro k c hc
  obtain ⟨d, h1, h2⟩ := h k c hc
  exact ⟨d, h1, h2.mono hm⟩

theorem AuxRel.upd {mn mx : α} {X : List α} {N : Nodes3 α} {a : ℕ → Option (Cur α)} {b : ℕ → Option (TreeCur α)} (h : AuxRel mn mx X N a b) {c : Cur α} {d : TreeCur α}
    (hc : CurRel mn mx X N c d) (k : ℕ) : AuxRel mn mx X N (upd a k (some c)) (upd b k (some d)) := by
  intro j c' hc'
  by_cases e : j = k
  · subst e
    rw [upd_same, Option.some.injEq] at hc'
    subst hc'
    exact ⟨d, upd_same .., hc⟩
  · rw [upd_ne _ _ e] at hc' ⊢
    exact h j c' hc'

theorem SimL.ne_nil {mn mx junk : α} {X : List α} {nset : ℕ} {st : St3 α} {t : TreeSt3 α} (hs : SimL mn mx junk X nset st t) (k : ℕ) : st.levels k ≠ [] :=
  fun e => by have := (hs.lvl k).head; rw [e] at this; simp at this

theorem SimL.atLeft {mn mx junk : α} {X : List α} {nset : ℕ} {st : St3 α} {t : TreeSt3 α} (hs : SimL mn mx junk X nset st t) {tf : ℕ} (hXf : X.length < tf) (k : ℕ) (x : α) :
    treeAtLeft tf (t.levels k) t.nodes.x x = (findAtLeft (st.levels k) x).map LNode.num := by
  have hkn : ∀ n ∈ st.levels k, Held t.nodes n := fun n hn => hs.held k n (List.mem_append_left _ hn)
  have hl := hs.length k
  rw [treeAtLeft_eq x (hs.inv k) (by simpa using hs.ne_nil k) (by rw [List.length_map]; omega) (by
    rw [List.pairwise_map]
    refine (hs.lvl k).sorted.imp_of_mem (fun {a b} ha hb hab => ?_)
    rw [(hkn a ha).x, (hkn b hb).x]; exact hab.1)]
  unfold findAtLeft
  rw [List.takeWhile_map, List.getLast?_map]
  congr 2
  have : ∀ L : List (LNode α), (∀ n ∈ L, Held t.nodes n) → L.takeWhile ((fun n => decide (t.nodes.x n ≤ x)) ∘ LNode.num) = L.takeWhile (fun n => decide (n.x ≤ x)) := by
    intro L
    induction L with
    | nil => intro _; rfl
    | cons a L ih =>
      intro hL
      rw [List.takeWhile_cons, List.takeWhile_cons, ih (fun n hn => hL n (by simp [hn]))]
      simp only [Function.comp, (hL a (by simp)).x]
  exact this _ hkn

theorem SimL.below {mn mx junk : α} {X : List α} {nset : ℕ} {st : St3 α} {t : TreeSt3 α} (hs : SimL mn mx junk X nset st t) {tf : ℕ} (hXf : X.length < tf) (k : ℕ) (y : α) :
    treeBelow tf (t.levels k) t.nodes.y y = (findBelow (st.levels k) y).map LNode.num := by
  have hkn : ∀ n ∈ st.levels k, Held t.nodes n := fun n hn => hs.held k n (List.mem_append_left _ hn)
  have hl := hs.length k
  rw [treeBelow_eq y (hs.inv k) (by simpa using hs.ne_nil k) (by rw [List.length_map]; omega) (by
    rw [List.pairwise_map]
    refine (hs.lvl k).sorted.imp_of_mem (fun {a b} ha hb hab => ?_)
    rw [(hkn a ha).y, (hkn b hb).y]; exact hab.2)]
  unfold findBelow
  have : ∀ L : List (LNode α), (∀ n ∈ L, Held t.nodes n) →
      (L.map LNode.num).find? (fun n => decide (t.nodes.y n < y)) = (L.find? (fun n => decide (n.y < y))).map LNode.num := by
    intro L
    induction L with
    | nil => intro _; rfl
    | cons a L ih =>
      intro hL
      rw [List.map_cons, List.find?_cons, List.find?_cons, ih (fun n hn => hL n (by simp [hn])), (hL a (by simp)).y]
      cases decide (a.y < y) <;> rfl
  exact this _ hkn

/-- A node of the level below the upper sentinel. -/
theorem SimL.node_rel {mn mx junk : α} {X : List α} {nset : ℕ} {st : St3 α} {t : TreeSt3 α} (hs : SimL mn mx junk X nset st t) (hm : mn < mx) {k : ℕ} {n : LNode α} (hn : n ∈ st.levels k)
    (hy : n.y < mx) : Known t.nodes n ∧ n.x ∈ X ∧ mn < n.x ∧ n.y < mx := by
  refine ⟨hs.known k n (List.mem_append_left _ hn), hs.xs k n hn, ?_, hy⟩
  rcases (hs.lvl k).bnd n hn with e | e | h
  · rw [e] at hy; exact absurd hy (lt_irrefl _)
  · rw [e]; exact hm
  · exact h.1

theorem findBelow_mem {L : List (LNode α)} {y : α} {n : LNode α} (h : findBelow L y = some n) : n ∈ L ∧ n.y < y := by
  unfold findBelow at h
  exact ⟨List.mem_of_find?_eq_some h, by simpa using List.find?_some h⟩

theorem findAtLeft_mem {L : List (LNode α)} {x : α} {n : LNode α} (h : findAtLeft L x = some n) : n ∈ L ∧ n.x ≤ x := by
  unfold findAtLeft at h
  have := List.mem_of_getLast? h
  refine ⟨(List.takeWhile_prefix _).subset this, ?_⟩
  have h2 := List.all_takeWhile (p := fun n : LNode α => decide (n.x ≤ x)) (l := L)
  simpa using List.all_eq_true.1 h2 n this

theorem nextIn_lt {L : List (LNode α)} {n m : LNode α} (hL : L.Pairwise LLt) (hn : nextIn L n = some m) : LLt n m := by
  unfold nextIn at hn
  split at hn
  · next a b bs hd =>
    simp only [Option.some.injEq] at hn
    subst hn
    have hsp := List.takeWhile_append_dropWhile (p := fun m : LNode α => decide (m ≠ n)) (l := L)
    rw [hd] at hsp
    have ha : a = n := by
      by_contra hne
      have : List.dropWhile (fun m : LNode α => decide (m ≠ n)) L ≠ [] := by rw [hd]; simp
      have h2 := List.head_dropWhile_not (fun m : LNode α => decide (m ≠ n)) (l := L) this
      simp only [hd, List.head_cons] at h2
      simp [hne] at h2
    subst ha
    rw [← hsp] at hL
    have := (List.pairwise_append.1 hL).2.1
    exact (List.pairwise_cons.1 this).1 b (by simp)
  · simp at hn

/-- The first part on the nodes does what it does on the sequences. -/
theorem treeFirstPart_sim {mn mx junk : α} {X : List α} {tf nset : ℕ} {st : St3 α} {t : TreeSt3 α} (hs : SimL mn mx junk X nset st t) (hXf : X.length < tf) {p : Pt3 α}
    (hx : mn < p.x) (hx' : p.x < mx) (hy' : p.y < mx) (hxX : p.x ∈ X) {prevY : α} (hpv : prevY ≤ mx) :
    ∀ (k : ℕ) (a : ℕ → Option (Cur α)) (b : ℕ → Option (TreeCur α)) (dom : Option (LNode α)) (stop : ℕ) (a' : ℕ → Option (Cur α)),
      firstPart st p prevY k a = some (dom, stop, a') → AuxRel mn mx X t.nodes a b →
      ∃ b', treeFirstPart tf t p prevY k b = some (optNum dom, stop, b') ∧ AuxRel mn mx X t.nodes a' b' ∧ (∀ d, dom = some d → (Known t.nodes d ∧ 2 ≤ d.id) ∧ d ∈ st.levels (stop - 1)) ∧
        (dom = none ↔ stop = 0)
  | 0, a, b, dom, stop, a', h, hab => by
    simp only [firstPart, Option.some.injEq, Prod.mk.injEq] at h
    obtain ⟨rfl, rfl, rfl⟩ := h
    exact ⟨b, rfl, hab, by simp, by simp⟩
  | k + 1, a, b, dom, stop, a', h, hab => by
    have hmm : mn < mx := hx.trans hx'
    rw [firstPart] at h
    rw [treeFirstPart, hs.atLeft hXf k p.x]
    split at h
    · simp at h
    next left hl =>
    obtain ⟨hlm, hlx⟩ := findAtLeft_mem hl
    have hK := hs.known k left (List.mem_append_left _ hlm)
    rw [hl, Option.map_some]
    dsimp only
    rw [(hs.held k left (List.mem_append_left _ hlm)).y]
    have hreal : left.y < mx → 2 ≤ left.id := by
      intro hly
      have := hs.node_rel hmm hlm hly
      exact hs.real k left hlm this.2.2.1 (hlx.trans_lt hx')
    by_cases h1 : left.y ≤ p.y
    · rw [if_pos h1] at h ⊢
      simp only [Option.some.injEq, Prod.mk.injEq] at h
      obtain ⟨rfl, rfl, rfl⟩ := h
      refine ⟨b, rfl, hab, ?_, by simp⟩
      intro d hd
      simp only [Option.some.injEq] at hd
      subst hd
      exact ⟨⟨hK, hreal (h1.trans_lt hy')⟩, hlm⟩
    · rw [if_neg h1] at h ⊢
      by_cases h2 : left.y < prevY
      · rw [if_pos h2] at h ⊢
        split at h
        · simp at h
        next nx hnx =>
        obtain ⟨e1, -, hnm⟩ := nextIn_num (hs.inv k) hnx
        have hlt := nextIn_lt (hs.lvl k).sorted hnx
        have hly := h2.trans_le hpv
        rw [e1]
        refine treeFirstPart_sim hs hXf hx hx' hy' hxX hpv k _ _ dom stop a' h (hab.upd ?_ k)
        exact ⟨rfl, rfl, rfl, rfl, ⟨hxX, hx, hly⟩, hs.node_rel hmm hnm (hlt.2.trans hly), hK, hreal hly⟩
      · rw [if_neg h2] at h ⊢
        rw [hs.below hXf k prevY]
        split at h
        · simp at h
        next n hn =>
        rw [hn, Option.map_some]
        dsimp only
        obtain ⟨hnm, hny⟩ := findBelow_mem hn
        refine treeFirstPart_sim hs hXf hx hx' hy' hxX hpv k _ _ dom stop a' h (hab.upd ?_ k)
        exact ⟨rfl, hs.node_rel hmm hnm (hny.trans_le hpv)⟩

/-- The `while` loop of the second part on the nodes does what it does on the sequences. -/
theorem treePromWhile_sim {mn mx junk : α} {X : List α} {tf nset : ℕ} (hX : X.length + 1 < 2 ^ 125) (hXf : X.length + 1 < tf) {p : Pt3 α}
    (hy : mn < p.y) {q : α × α} (hq1 : q.1 ≤ mx) (hq2 : q.2 ≤ mx) (hmm : mn < mx) (F : Freed3 α) {i : ℕ} (k : ℕ) (hik : i ≤ k) :
    ∀ (fuel : ℕ) (c : Cur α) (d : TreeCur α) (st : St3 α) (t : TreeSt3 α) (c' : Cur α) (st' : St3 α),
      SimL mn mx junk X nset st t → CurRel mn mx X t.nodes c d → promWhile nset p q k fuel c st = some (c', st') →
      ∃ d' t', treePromWhile tf F nset p q k fuel d t = some (d', t') ∧ SimL mn mx junk X nset st' t' ∧ CurRel mn mx X t'.nodes c' d' ∧ Frame3 i st st' t t'
  | 0, c, d, st, t, c', st', hs, hc, h => by simp [promWhile] at h
  | fuel + 1, c, d, st, t, c', st', hs, hc, h => by
    rw [promWhile] at h
    rw [treePromWhile]
    split at h
    · simp at h
    next hv =>
    rw [not_not] at hv
    obtain ⟨ex, ey, ep, cX, cx, cy⟩ := hc.xy (hs.cur hv)
    dsimp only at h ⊢
    rw [ex, ey, ep]
    by_cases hcond : c.y ≥ max q.2 p.y ∧ (c.y > max q.2 p.y ∨ max q.2 p.y > p.y)
    · rw [if_pos hcond] at h ⊢
      by_cases hqx : q.1 ≤ c.x
      · rw [if_pos hqx] at h ⊢
        rw [hs.below (by omega) k q.2]
        split at h
        · simp at h
        next n hn =>
        rw [hn, Option.map_some]
        dsimp only
        obtain ⟨hnm, hny⟩ := findBelow_mem hn
        exact treePromWhile_sim hX hXf hy hq1 hq2 hmm F k hik fuel (.node n) (.node n.num) st t c' st' hs ⟨rfl, hs.node_rel hmm hnm (hny.trans_le hq2)⟩ h
      · rw [if_neg hqx] at h ⊢
        have cx' : c.x < mx := (not_le.1 hqx).trans_le hq1
        have hprom := hc.prom hs hv cx'
        split at h
        · simp at h
        next st1 tn hadd =>
        obtain ⟨t1, g1, g2, g3, g4, g5, g6, g7, g8, g9, g10, g11⟩ := treeAdd2level_spec hs hX hXf cx cx' (hy.trans_le ((le_max_right _ _).trans hcond.1)) cy cX F
          (pr := some c.promoter) (fun n hn => by simp only [Option.some.injEq] at hn; subst hn; exact hprom) hadd
        rw [show optNum (some c.promoter) = c.promoter.num from rfl] at g1
        rw [g1]
        dsimp only at h ⊢
        have hF1 : Frame3 i st st1 t t1 := ⟨g3, g4, g5, g6, g7, g8, g10, fun j hj => g11 j (by omega)⟩
        have hc1 := hc.mono g8
        have hv1 : c.valid (st1.levels k) := by rw [g11 k (by omega)]; exact hv
        have hp1 := g2.cur hv1
        obtain ⟨hs2, hF2⟩ := linkEqual_sim g2 (n := c.promoter) g9 (c := p.z = c.promoter.z ∧ c.x = c.promoter.x)
          (c' := p.z = t1.nodes.z c.promoter.num ∧ d.x t1.nodes = t1.nodes.x c.promoter.num) (by rw [hp1.z hprom.2, hp1.x, (hc1.xy hp1).1]) i
        set t2 := treeLinkEqual t1 c.promoter.num (optNum tn) (p.z = t1.nodes.z c.promoter.num ∧ d.x t1.nodes = t1.nodes.x c.promoter.num) with ht2
        set st2 := linkEqual st1 c.promoter tn (p.z = c.promoter.z ∧ c.x = c.promoter.x) with hst2
        have hc2 := hc1.mono hF2.known
        have hF := hF1.trans hF2
        split at h
        · simp at h
        next n hn =>
        have hnext : d.next (t2.levels k) = n.num ∧ CurRel mn mx X t2.nodes (.node n) (.node n.num) := by
          cases c <;> cases d
          · next x y nx pr x' y' nx' pr' =>
            obtain ⟨-, -, h3, -, -, h6, -⟩ := hc2
            simp only [Cur.next, Option.some.injEq] at hn
            subst hn
            exact ⟨h3, rfl, h6⟩
          · exact hc2.elim
          · exact hc2.elim
          · next m m' =>
            obtain ⟨rfl, -⟩ := hc2
            obtain ⟨e1, -, e3⟩ := nextIn_num (hs2.inv k) hn
            have hlt := nextIn_lt (hs2.lvl k).sorted hn
            exact ⟨e1, rfl, hs2.node_rel hmm e3 (hlt.2.trans cy)⟩
        rw [hnext.1, deref_of_ne n.num_ne]
        dsimp only
        obtain ⟨d', t', r1, r2, r3, r4⟩ := treePromWhile_sim hX hXf hy hq1 hq2 hmm F k hik fuel (.node n) (.node n.num) st2 t2 c' st' hs2 hnext.2 h
        exact ⟨d', t', r1, r2, r3, hF.trans r4⟩
    · rw [if_neg hcond] at h ⊢
      simp only [Option.some.injEq, Prod.mk.injEq] at h
      obtain ⟨rfl, rfl⟩ := h
      exact ⟨d, t, rfl, hs, hc, Frame3.rfl' i st t⟩

theorem treePromLevels_sim {mn mx junk : α} {X : List α} {tf nset : ℕ} (hX : X.length + 1 < 2 ^ 125) (hXf : X.length + 1 < tf) {p : Pt3 α}
    (hy : mn < p.y) {q : α × α} (hq1 : q.1 ≤ mx) (hq2 : q.2 ≤ mx) (hmm : mn < mx) (F : Freed3 α) {i : ℕ} (fuel : ℕ) :
    ∀ (ks : List ℕ) (a : ℕ → Option (Cur α)) (b : ℕ → Option (TreeCur α)) (st : St3 α) (t : TreeSt3 α) (a' : ℕ → Option (Cur α)) (st' : St3 α),
      (∀ k ∈ ks, i ≤ k) → SimL mn mx junk X nset st t → AuxRel mn mx X t.nodes a b → promLevels nset p q fuel ks a st = some (a', st') →
      ∃ b' t', treePromLevels tf F nset p q fuel ks b t = some (b', t') ∧ SimL mn mx junk X nset st' t' ∧ AuxRel mn mx X t'.nodes a' b' ∧ Frame3 i st st' t t'
  | [], a, b, st, t, a', st', hik, hs, hab, h => by
    simp only [promLevels, Option.some.injEq, Prod.mk.injEq] at h
    obtain ⟨rfl, rfl⟩ := h
    exact ⟨b, t, rfl, hs, hab, Frame3.rfl' i st t⟩
  | k :: ks, a, b, st, t, a', st', hik, hs, hab, h => by
    rw [promLevels] at h
    rw [treePromLevels]
    split at h
    · simp at h
    next c hc =>
    obtain ⟨d, hd, hcd⟩ := hab k c hc
    rw [hd]
    dsimp only
    split at h
    · simp at h
    next c1 st1 h1 =>
    obtain ⟨d1, t1, r1, r2, r3, r4⟩ := treePromWhile_sim hX hXf hy hq1 hq2 hmm F k (hik k (by simp)) fuel c d st t c1 st1 hs hcd h1
    rw [r1]
    dsimp only
    obtain ⟨b2, t2, q1, q2, q3, q4⟩ := treePromLevels_sim hX hXf hy hq1 hq2 hmm F fuel ks _ _ st1 t1 a' st' (fun j hj => hik j (by simp [hj])) r2 ((hab.mono r4.known).upd r3 k) h
    exact ⟨b2, t2, q1, q2, q3, r4.trans q4⟩

theorem treeThirdPart_sim {mn mx junk : α} {X : List α} {tf nset : ℕ} (hX : X.length + 1 < 2 ^ 125) (hXf : X.length + 1 < tf) {p : Pt3 α}
    (hy : mn < p.y) (hy' : p.y < mx) {q : α × α} (hq1 : q.1 ≤ mx) (F : Freed3 α) {i : ℕ} :
    ∀ (ks : List ℕ) (a : ℕ → Option (Cur α)) (b : ℕ → Option (TreeCur α)) (st : St3 α) (t : TreeSt3 α) (st' : St3 α),
      (∀ k ∈ ks, i ≤ k) → SimL mn mx junk X nset st t → AuxRel mn mx X t.nodes a b → thirdPart nset p q ks a st = some st' →
      ∃ t', treeThirdPart tf F nset p q.1 ks b t = some t' ∧ SimL mn mx junk X nset st' t' ∧ Frame3 i st st' t t'
  | [], a, b, st, t, st', hik, hs, hab, h => by
    simp only [thirdPart, Option.some.injEq] at h
    subst h
    exact ⟨t, rfl, hs, Frame3.rfl' i st t⟩
  | k :: ks, a, b, st, t, st', hik, hs, hab, h => by
    rw [thirdPart] at h
    rw [treeThirdPart]
    split at h
    · simp at h
    next c hc =>
    obtain ⟨d, hd, hcd⟩ := hab k c hc
    rw [hd]
    dsimp only
    split at h
    · simp at h
    next hv =>
    rw [not_not] at hv
    obtain ⟨ex, ey, ep, cX, cx, cy⟩ := hcd.xy (hs.cur hv)
    rw [ex, ep]
    have hik0 := hik k (by simp)
    have hik1 : ∀ j ∈ ks, i ≤ j := fun j hj => hik j (by simp [hj])
    by_cases hqx : c.x < q.1
    · rw [if_pos hqx] at h ⊢
      have cx' := hqx.trans_le hq1
      have hprom := hcd.prom hs hv cx'
      have key : ∀ st1 tn, add2level nset st (k + 1) c.x p.y p.z p.set (some c.promoter) = some (st1, tn) → _ := fun st1 tn hadd =>
        treeAdd2level_spec hs hX hXf cx cx' hy hy' cX F
          (pr := some c.promoter) (fun n hn => by simp only [Option.some.injEq] at hn; subst hn; exact hprom) hadd
      split at h
      · simp at h
      · next st1 hadd =>
        obtain ⟨t1, g1, g2, g3, g4, g5, g6, g7, g8, g9, g10, g11⟩ := key _ _ hadd
        rw [show optNum (some c.promoter) = c.promoter.num from rfl] at g1
        rw [g1]
        dsimp only
        rw [if_pos (show optNum (none : Option (LNode α)) = 0 from rfl)]
        obtain ⟨t', r1, r2, r3⟩ := treeThirdPart_sim hX hXf hy hy' hq1 F ks a b st1 t1 st' hik1 g2 (hab.mono g8) h
        exact ⟨t', r1, r2, Frame3.trans ⟨g3, g4, g5, g6, g7, g8, g10, fun j hj => g11 j (by omega)⟩ r3⟩
      · next st1 m hadd =>
        obtain ⟨t1, g1, g2, g3, g4, g5, g6, g7, g8, g9, g10, g11⟩ := key _ _ hadd
        rw [show optNum (some c.promoter) = c.promoter.num from rfl] at g1
        rw [g1]
        dsimp only
        rw [if_neg (show optNum (some m) ≠ 0 from m.num_ne)]
        have hF1 : Frame3 i st st1 t t1 := ⟨g3, g4, g5, g6, g7, g8, g10, fun j hj => g11 j (by omega)⟩
        have hv1 : c.valid (st1.levels k) := by rw [g11 k (by omega)]; exact hv
        have hp1 := g2.cur hv1
        have hc1 := hcd.mono g8
        split at h
        · simp at h
        next cz hcz =>
        have hz : d.z? t1.nodes = some cz := by
          cases c <;> cases d
          · simp [Cur.z?] at hcz
          · exact hc1.elim
          · simp [Cur.z?] at hcz; exact hc1.elim
          · obtain ⟨rfl, h2, -⟩ := hc1
            rw [← hcz]
            exact congrArg some (hp1.z hprom.2)
        rw [hz]
        dsimp only
        obtain ⟨hs2, hF2⟩ := linkEqual_sim g2 (n := c.promoter) g9 (c := p.z = cz ∧ p.y = c.y) (c' := p.z = cz ∧ p.y = d.y t1.nodes) (by rw [(hc1.xy hp1).2.1]) i
        obtain ⟨t', r1, r2, r3⟩ := treeThirdPart_sim hX hXf hy hy' hq1 F ks a b _ _ st' hik1 hs2 (hab.mono (hF1.trans hF2).known) h
        exact ⟨t', r1, r2, (hF1.trans hF2).trans r3⟩
    · rw [if_neg hqx] at h ⊢
      exact treeThirdPart_sim hX hXf hy hy' hq1 F ks a b st t st' hik1 hs hab h

end Moo
