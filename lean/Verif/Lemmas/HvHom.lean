import Verif.Model.HvMem

set_option autoImplicit false
set_option linter.unusedSectionVars false

/-! # Helper lemmas: the hypervolume computation commutes with maps that preserve the operations and comparisons of numbers -/

namespace Moo

variable {K F : Type} [Zero K] [One K] [Add K] [Sub K] [Mul K] [LT K] [DecidableLT K] [LE K] [DecidableLE K]
  [Zero F] [One F] [Add F] [Sub F] [Mul F] [LT F] [DecidableLT F] [LE F] [DecidableLE F]

/-- `f` preserves the operations and comparisons. -/
structure NumHom (f : K → F) : Prop where
  zero : f 0 = 0
  one : f 1 = 1
  add : ∀ a b, f a + f b = f (a + b)
  sub : ∀ a b, f a - f b = f (a - b)
  mul : ∀ a b, f a * f b = f (a * b)
  lt : ∀ a b, f a < f b ↔ a < b
  le : ∀ a b, f a ≤ f b ↔ a ≤ b

/-- The memory with the values mapped. -/
def HvMem.mapVal (f : K → F) (M : HvMem K) : HvMem F where
  next := M.next
  prev := M.prev
  ignore := M.ignore
  area i p := (M.area i p).map f
  vol i p := (M.vol i p).map f
  bound i := (M.bound i).map f

theorem bindHom {A A' B B' : Type} {o : Option A} {u : A → A'} {k : A → Option B} {k' : A' → Option B'} {w : B → B'}
    (h : ∀ a, k' (u a) = (k a).map w) : (o.map u).bind k' = (o.bind k).map w := by
  cases o with
  | none => rfl
  | some a => exact h a

theorem bindHomId {A B B' : Type} {o : Option A} {k : A → Option B} {k' : A → Option B'} {w : B → B'}
    (h : ∀ a, k' a = (k a).map w) : o.bind k' = (o.bind k).map w := by
  cases o with
  | none => rfl
  | some a => exact h a

theorem iteHom {B B' : Type} {c : Prop} [Decidable c] {a b : Option B} {a' b' : Option B'} {w : B → B'}
    (h1 : a' = a.map w) (h2 : b' = b.map w) : (if c then a' else b') = (if c then a else b).map w := by
  split_ifs
  · exact h1
  · exact h2

section
variable {f : K → F}

theorem setNext_hom (n d : ℕ) (M : HvMem K) (i p q : ℕ) : (M.mapVal f).setNext n d i p q = (M.setNext n d i p q).map (HvMem.mapVal f) := by
  unfold HvMem.setNext; split_ifs <;> rfl

theorem setPrev_hom (n d : ℕ) (M : HvMem K) (i p q : ℕ) : (M.mapVal f).setPrev n d i p q = (M.setPrev n d i p q).map (HvMem.mapVal f) := by
  unfold HvMem.setPrev; split_ifs <;> rfl

theorem setIgnore_hom (n : ℕ) (M : HvMem K) (p v : ℕ) : (M.mapVal f).setIgnore n p v = (M.setIgnore n p v).map (HvMem.mapVal f) := by
  unfold HvMem.setIgnore; split_ifs <;> rfl

theorem setArea_hom (n d : ℕ) (M : HvMem K) (i p : ℕ) (v : K) : (M.mapVal f).setArea n d i p (f v) = (M.setArea n d i p v).map (HvMem.mapVal f) := by
  unfold HvMem.setArea
  split_ifs
  · simp only [Option.map_some, HvMem.mapVal, Option.some.injEq, HvMem.mk.injEq, true_and, and_true]
    funext a b
    by_cases h1 : a = i
    · subst h1; by_cases h2 : b = p <;> simp [upd2, h2]
    · simp [upd2, h1]
  · rfl

theorem setVol_hom (n d : ℕ) (M : HvMem K) (i p : ℕ) (v : K) : (M.mapVal f).setVol n d i p (f v) = (M.setVol n d i p v).map (HvMem.mapVal f) := by
  unfold HvMem.setVol
  split_ifs
  · simp only [Option.map_some, HvMem.mapVal, Option.some.injEq, HvMem.mk.injEq, true_and, and_true]
    funext a b
    by_cases h1 : a = i
    · subst h1; by_cases h2 : b = p <;> simp [upd2, h2]
    · simp [upd2, h1]
  · rfl

theorem setBound_hom (d : ℕ) (M : HvMem K) (i : ℕ) (v : K) : (M.mapVal f).setBound d i (f v) = (M.setBound d i v).map (HvMem.mapVal f) := by
  unfold HvMem.setBound
  split_ifs
  · simp only [Option.map_some, HvMem.mapVal, Option.some.injEq, HvMem.mk.injEq, true_and]
    funext a
    simp only [upd]
    split_ifs <;> rfl
  · rfl

theorem rdData_hom (x : ℕ → ℕ → K) (n d p k : ℕ) : rdData (fun p k => f (x p k)) n d p k = (rdData x n d p k).map f := by
  unfold rdData; split_ifs <;> rfl

theorem rdRef_hom (ref : ℕ → K) (d k : ℕ) : rdRef (fun k => f (ref k)) d k = (rdRef ref d k).map f := by
  unfold rdRef; split_ifs <;> rfl

theorem mapVal_next (M : HvMem K) (i p : ℕ) : (M.mapVal f).next i p = M.next i p := rfl
theorem mapVal_prev (M : HvMem K) (i p : ℕ) : (M.mapVal f).prev i p = M.prev i p := rfl
theorem mapVal_ignore (M : HvMem K) (p : ℕ) : (M.mapVal f).ignore p = M.ignore p := rfl
theorem mapVal_area (M : HvMem K) (i p : ℕ) : (M.mapVal f).area i p = (M.area i p).map f := rfl
theorem mapVal_vol (M : HvMem K) (i p : ℕ) : (M.mapVal f).vol i p = (M.vol i p).map f := rfl
theorem mapVal_bound (M : HvMem K) (i : ℕ) : (M.mapVal f).bound i = (M.bound i).map f := rfl

/-- One step of a program. -/
macro "homstep" : tactic => `(tactic| first
  | (simp only [setNext_hom, setPrev_hom, setIgnore_hom, setArea_hom, setVol_hom, setBound_hom, rdData_hom, rdRef_hom, mapVal_next, mapVal_prev, mapVal_ignore,
      mapVal_area, mapVal_vol, mapVal_bound]; refine bindHom fun _ => ?_)
  | refine bindHom fun _ => ?_
  | refine bindHomId fun _ => ?_
  | refine iteHom ?_ ?_)

theorem memLinkFrom_hom (n d j : ℕ) : ∀ (qs : List ℕ) (a : ℕ) (M : HvMem K),
    memLinkFrom n d j a qs (M.mapVal f) = (memLinkFrom n d j a qs M).map (HvMem.mapVal f) := by
  intro qs
  induction qs with
  | nil =>
    intro a M
    unfold memLinkFrom
    simp only [Option.bind_eq_bind]
    homstep
    exact setPrev_hom ..
  | cons q qs ih =>
    intro a M
    unfold memLinkFrom
    simp only [Option.bind_eq_bind]
    homstep
    homstep
    exact ih _ _

theorem memLinkAll_hom (n d : ℕ) (ords : ℕ → List ℕ) : ∀ (m : ℕ) (M : HvMem K),
    memLinkAll n d ords m (M.mapVal f) = (memLinkAll n d ords m M).map (HvMem.mapVal f) := by
  intro m
  induction m with
  | zero => intro M; rfl
  | succ m ih =>
    intro M
    unfold memLinkAll
    simp only [Option.bind_eq_bind, memLinkFrom_hom]
    homstep
    exact ih _

theorem memSetup_hom (hf : NumHom f) (n d : ℕ) (ords : ℕ → List ℕ) (b0 : K) :
    memSetup n d ords (f b0) = (memSetup n d ords b0).map (HvMem.mapVal f) := by
  unfold memSetup
  rw [← memLinkAll_hom]
  congr 1
  simp only [HvMem.mapVal, Option.map_none, HvMem.mk.injEq, true_and]
  refine ⟨?_, ?_⟩
  · funext i p; split_ifs <;> simp [hf.zero]
  · funext i; split_ifs <;> rfl

theorem memDeleteStep_hom (hf : NumHom f) (x : ℕ → ℕ → K) (n d p i : ℕ) (M : HvMem K) :
    memDeleteStep (fun p k => f (x p k)) n d p i (M.mapVal f) = (memDeleteStep x n d p i M).map (HvMem.mapVal f) := by
  unfold memDeleteStep
  simp only [Option.bind_eq_bind]
  iterate 8 homstep
  simp only [gt_iff_lt, hf.lt]
  homstep
  · exact setBound_hom ..
  · rfl

theorem memDeleteLoop_hom (hf : NumHom f) (x : ℕ → ℕ → K) (n d p : ℕ) : ∀ (m : ℕ) (M : HvMem K),
    memDeleteLoop (fun p k => f (x p k)) n d p m (M.mapVal f) = (memDeleteLoop x n d p m M).map (HvMem.mapVal f) := by
  intro m
  induction m with
  | zero => intro M; rfl
  | succ m ih =>
    intro M
    unfold memDeleteLoop
    simp only [Option.bind_eq_bind, ih]
    homstep
    exact memDeleteStep_hom hf ..

theorem memReinsertStep_hom (hf : NumHom f) (x : ℕ → ℕ → K) (n d p i : ℕ) (M : HvMem K) :
    memReinsertStep (fun p k => f (x p k)) n d p i (M.mapVal f) = (memReinsertStep x n d p i M).map (HvMem.mapVal f) := by
  unfold memReinsertStep
  simp only [Option.bind_eq_bind]
  iterate 6 homstep
  simp only [gt_iff_lt, hf.lt]
  homstep
  · exact setBound_hom ..
  · rfl

theorem memReinsertLoop_hom (hf : NumHom f) (x : ℕ → ℕ → K) (n d p : ℕ) : ∀ (m : ℕ) (M : HvMem K),
    memReinsertLoop (fun p k => f (x p k)) n d p m (M.mapVal f) = (memReinsertLoop x n d p m M).map (HvMem.mapVal f) := by
  intro m
  induction m with
  | zero => intro M; rfl
  | succ m ih =>
    intro M
    unfold memReinsertLoop
    simp only [Option.bind_eq_bind, ih]
    homstep
    exact memReinsertStep_hom hf ..

theorem memHeight_hom (hf : NumHom f) (x : ℕ → ℕ → K) (ref : ℕ → K) (n d : ℕ) (b : Bool) (pp : ℕ) (M : HvMem K) :
    memHeight (fun p k => f (x p k)) (fun k => f (ref k)) n d b pp (M.mapVal f) = (memHeight x ref n d b pp M).map f := by
  unfold memHeight
  simp only [Option.bind_eq_bind]
  homstep
  · iterate 2 homstep
    simp [hf.sub]
  · iterate 3 homstep
    simp [hf.sub]

theorem compareTreeAsc_hom (hf : NumHom f) (a b : ℕ → K) : compareTreeAsc (fun k => f (a k)) (fun k => f (b k)) = compareTreeAsc a b := by
  unfold compareTreeAsc
  simp only [gt_iff_lt, ge_iff_le, hf.lt, hf.le]

theorem hv3dPop_hom (hf : NumHom f) (x : ℕ → ℕ → K) (ref : ℕ → K) (pp : ℕ) (nxt0 : K) : ∀ (l : List ℕ) (hypera : K),
    hv3dPop (fun p k => f (x p k)) (fun k => f (ref k)) pp (f nxt0) l (f hypera) =
      ((hv3dPop x ref pp nxt0 l hypera).1, f (hv3dPop x ref pp nxt0 l hypera).2.1, f (hv3dPop x ref pp nxt0 l hypera).2.2) := by
  intro l
  induction l with
  | nil => intro h; rfl
  | cons cur l ih =>
    intro h
    cases l with
    | nil => simp only [hv3dPop, hf.sub, hf.mul]
    | cons prv rest =>
      unfold hv3dPop
      simp only [hf.sub, hf.mul, hf.lt, ih]
      split_ifs <;> rfl

theorem nextX_hom (x : ℕ → ℕ → K) (ref : ℕ → K) (l : List ℕ) : nextX (fun p k => f (x p k)) (fun k => f (ref k)) l = f (nextX x ref l) := by
  cases l <;> rfl

theorem hv3dUpdate_hom (hf : NumHom f) (x : ℕ → ℕ → K) (ref : ℕ → K) (T : List ℕ) (pp : ℕ) (hypera : K) :
    hv3dUpdate (fun p k => f (x p k)) (fun k => f (ref k)) T pp (f hypera) = (hv3dUpdate x ref T pp hypera).map (fun r => (r.1, f r.2)) := by
  unfold hv3dUpdate
  simp only [compareTreeAsc_hom hf, nextX_hom, gt_iff_lt, hf.lt]
  refine iteHom ?_ rfl
  generalize (T.takeWhile fun t => decide (0 < compareTreeAsc (x pp) (x t))).reverse = l
  cases l with
  | nil => simp only [hf.sub, hf.mul, hf.add, Option.map_some]
  | cons t rest =>
    simp only
    refine iteHom ?_ ?_
    · simp only [hv3dPop_hom hf, hf.sub, hf.mul, hf.add, Option.map_some]
    · simp only [hf.sub, hf.mul, hf.add, Option.map_some]

theorem ite_f (c : Prop) [Decidable c] (a b : K) : (if c then f a else f b) = f (if c then a else b) := by split_ifs <;> rfl

theorem memHv3dBody_hom (hf : NumHom f) (x : ℕ → ℕ → K) (ref : ℕ → K) (n pp : ℕ) (T : List ℕ) (hypera hyperv height : K) (M : HvMem K) :
    memHv3dBody (fun p k => f (x p k)) (fun k => f (ref k)) n pp T (f hypera) (f hyperv) (f height) (M.mapVal f) =
      (memHv3dBody x ref n pp T hypera hyperv height M).map (fun r => (r.1, f r.2.1, f r.2.2.1, r.2.2.2.mapVal f)) := by
  unfold memHv3dBody
  simp only [Option.bind_eq_bind]
  homstep
  homstep
  · simp only [hf.mul, hf.add, Option.map_some]
  · refine iteHom ?_ rfl
    rw [hv3dUpdate_hom hf]
    have h0 : (0 : F) = f 0 := hf.zero.symm
    cases hv3dUpdate x ref T pp hypera with
    | none =>
      simp only [Option.map_none]
      homstep
      simp only [gt_iff_lt, h0, hf.lt, hf.mul, hf.add, ite_f, Option.map_some]
    | some r =>
      simp only [Option.map_some, gt_iff_lt, h0, hf.lt, hf.mul, hf.add, ite_f]

theorem memHv3dLoop_hom (hf : NumHom f) (x : ℕ → ℕ → K) (ref : ℕ → K) (n d : ℕ) : ∀ (fuel pp : ℕ) (T : List ℕ) (hypera hyperv : K) (M : HvMem K),
    memHv3dLoop (fun p k => f (x p k)) (fun k => f (ref k)) n d fuel pp T (f hypera) (f hyperv) (M.mapVal f) =
      (memHv3dLoop x ref n d fuel pp T hypera hyperv M).map (fun r => (f r.1, r.2.mapVal f)) := by
  intro fuel
  induction fuel with
  | zero => intros; rfl
  | succ fuel ih =>
    intro pp T hypera hyperv M
    unfold memHv3dLoop
    simp only [Option.bind_eq_bind]
    homstep
    rw [memHeight_hom hf]
    homstep
    rw [memHv3dBody_hom hf]
    homstep
    simp only [mapVal_next]
    homstep
    homstep
    · rfl
    · exact ih ..

theorem memHv3dRef_hom (hf : NumHom f) (x : ℕ → ℕ → K) (ref : ℕ → K) (n d c : ℕ) (M : HvMem K) :
    memHv3dRef (fun p k => f (x p k)) (fun k => f (ref k)) n d c (M.mapVal f) = (memHv3dRef x ref n d c M).map (fun r => (f r.1, r.2.mapVal f)) := by
  unfold memHv3dRef
  simp only [Option.bind_eq_bind]
  iterate 5 homstep
  rw [memHeight_hom hf]
  iterate 3 homstep
  · simp only [hf.mul, hf.sub, Option.map_some]
  · simp only [hf.mul, hf.sub]
    exact memHv3dLoop_hom hf ..

/-- The recursive function commutes with the map. -/
def RecHom (f : K → F) (rec : ℕ → HvMem K → Option (K × HvMem K)) (rec' : ℕ → HvMem F → Option (F × HvMem F)) : Prop :=
  ∀ c M, rec' c (M.mapVal f) = (rec c M).map (fun r => (f r.1, r.2.mapVal f))

theorem memSkip_hom (hf : NumHom f) {rec : ℕ → HvMem K → Option (K × HvMem K)} {rec' : ℕ → HvMem F → Option (F × HvMem F)} (hr : RecHom f rec rec')
    (n d dim c p : ℕ) (M : HvMem K) : memSkip rec' n d dim c p (M.mapVal f) = (memSkip rec n d dim c p M).map (HvMem.mapVal f) := by
  unfold memSkip
  simp only [Option.bind_eq_bind]
  iterate 2 homstep
  · iterate 2 homstep
    exact setArea_hom ..
  · rw [hr]
    iterate 5 homstep
    simp only [hf.le]
    homstep
    · rfl
    · rfl

theorem memReset_hom (n dim : ℕ) : ∀ (fuel pp : ℕ) (M : HvMem K), memReset n dim fuel pp (M.mapVal f) = (memReset n dim fuel pp M).map (HvMem.mapVal f) := by
  intro fuel
  induction fuel with
  | zero => intro pp M; unfold memReset; refine iteHom rfl rfl
  | succ fuel ih =>
    intro pp M
    unfold memReset
    simp only [Option.bind_eq_bind]
    refine iteHom rfl ?_
    homstep
    homstep
    · rw [setIgnore_hom]
      homstep
      simp only [mapVal_prev]
      homstep
      exact ih ..
    · simp only [Option.bind_some, mapVal_prev]
      homstep
      exact ih ..

theorem memDelCond_hom (hf : NumHom f) (x : ℕ → ℕ → K) (n d dim c p1 : ℕ) (M : HvMem K) :
    memDelCond (fun p k => f (x p k)) n d dim c p1 (M.mapVal f) = memDelCond x n d dim c p1 M := by
  have : memDelCond (fun p k => f (x p k)) n d dim c p1 (M.mapVal f) = (memDelCond x n d dim c p1 M).map id := by
    unfold memDelCond
    simp only [Option.bind_eq_bind]
    refine iteHom ?_ rfl
    iterate 2 homstep
    simp only [gt_iff_lt, ge_iff_le, hf.lt]
    refine iteHom rfl ?_
    iterate 2 homstep
    simp only [hf.le, Option.map_some, id]
  simpa using this

theorem memDelLoop_hom (hf : NumHom f) (x : ℕ → ℕ → K) (n d dim : ℕ) : ∀ (c p0 p1 : ℕ) (M : HvMem K),
    memDelLoop (fun p k => f (x p k)) n d dim c p0 p1 (M.mapVal f) =
      (memDelLoop x n d dim c p0 p1 M).map (fun r => (r.1, r.2.1, r.2.2.1, r.2.2.2.mapVal f)) := by
  intro c
  induction c with
  | zero => intros; rfl
  | succ c ih =>
    intro p0 p1 M
    unfold memDelLoop
    simp only [Option.bind_eq_bind, memDelCond_hom hf, memDeleteLoop_hom hf]
    homstep
    refine iteHom ?_ rfl
    homstep
    simp only [mapVal_prev]
    homstep
    exact ih ..

theorem memAreaInit_hom (hf : NumHom f) (x : ℕ → ℕ → K) (ref : ℕ → K) (n d p1 : ℕ) : ∀ (m : ℕ) (M : HvMem K),
    memAreaInit (fun p k => f (x p k)) (fun k => f (ref k)) n d p1 m (M.mapVal f) = (memAreaInit x ref n d p1 m M).map (HvMem.mapVal f) := by
  intro m
  induction m with
  | zero =>
    intro M
    unfold memAreaInit
    rw [← hf.one]
    exact setArea_hom ..
  | succ m ih =>
    intro M
    unfold memAreaInit
    simp only [Option.bind_eq_bind, ih]
    iterate 4 homstep
    simp only [hf.sub, hf.mul]
    exact setArea_hom ..

theorem memMainLoop_hom (hf : NumHom f) {rec : ℕ → HvMem K → Option (K × HvMem K)} {rec' : ℕ → HvMem F → Option (F × HvMem F)} (hr : RecHom f rec rec')
    (x : ℕ → ℕ → K) (n d dim : ℕ) : ∀ (fuel c p0 p1 : ℕ) (hyperv : K) (M : HvMem K),
    memMainLoop rec' (fun p k => f (x p k)) n d dim fuel c p0 p1 (f hyperv) (M.mapVal f) =
      (memMainLoop rec x n d dim fuel c p0 p1 hyperv M).map (fun r => (f r.1, r.2.1, r.2.2.mapVal f)) := by
  intro fuel
  induction fuel with
  | zero => intro c p0 p1 hyperv M; unfold memMainLoop; exact iteHom rfl rfl
  | succ fuel ih =>
    intro c p0 p1 hyperv M
    unfold memMainLoop
    simp only [Option.bind_eq_bind]
    refine iteHom rfl ?_
    iterate 4 homstep
    rw [memReinsertLoop_hom hf]
    homstep
    simp only [mapVal_next]
    homstep
    simp only [hf.sub, hf.mul, hf.add]
    homstep
    rw [memSkip_hom hf hr]
    homstep
    exact ih ..

theorem memStart_hom (hf : NumHom f) (x : ℕ → ℕ → K) (ref : ℕ → K) (n d dim c p1 : ℕ) (M : HvMem K) :
    memStart (fun p k => f (x p k)) (fun k => f (ref k)) n d dim c p1 (M.mapVal f) =
      (memStart x ref n d dim c p1 M).map (fun r => (f r.1, r.2.mapVal f)) := by
  unfold memStart
  simp only [Option.bind_eq_bind]
  homstep
  · simp only [mapVal_prev]
    iterate 5 homstep
    simp only [hf.sub, hf.mul, hf.add]
    homstep
    rfl
  · rw [memAreaInit_hom hf]
    homstep
    rw [← hf.zero]
    homstep
    rfl

theorem memLevel_hom (hf : NumHom f) {rec : ℕ → HvMem K → Option (K × HvMem K)} {rec' : ℕ → HvMem F → Option (F × HvMem F)} (hr : RecHom f rec rec')
    (x : ℕ → ℕ → K) (ref : ℕ → K) (n d dim c : ℕ) (M : HvMem K) :
    memLevel rec' (fun p k => f (x p k)) (fun k => f (ref k)) n d dim c (M.mapVal f) =
      (memLevel rec x ref n d dim c M).map (fun r => (f r.1, r.2.mapVal f)) := by
  unfold memLevel
  simp only [Option.bind_eq_bind, mapVal_prev]
  homstep
  rw [memReset_hom]
  homstep
  rw [memDelLoop_hom hf]
  homstep
  rw [memStart_hom hf]
  homstep
  rw [memSkip_hom hf hr]
  homstep
  rw [memMainLoop_hom hf hr]
  homstep
  iterate 3 homstep
  simp only [hf.sub, hf.mul, hf.add, Option.map_some]

theorem memRec_hom (hf : NumHom f) (x : ℕ → ℕ → K) (ref : ℕ → K) (n d : ℕ) : ∀ k : ℕ,
    RecHom f (memRec x ref n d k) (memRec (fun p k => f (x p k)) (fun k => f (ref k)) n d k) := by
  intro k
  induction k with
  | zero => intro c M; exact memHv3dRef_hom hf ..
  | succ k ih => intro c M; exact memLevel_hom hf ih ..

theorem memFilterDeleteStep_hom (n d p i : ℕ) (M : HvMem K) :
    memFilterDeleteStep n d p i (M.mapVal f) = (memFilterDeleteStep n d p i M).map (HvMem.mapVal f) := by
  unfold memFilterDeleteStep
  simp only [Option.bind_eq_bind, mapVal_next, mapVal_prev]
  iterate 5 homstep
  exact setNext_hom ..

theorem memFilterDeleteNode_hom (n d p : ℕ) : ∀ (m : ℕ) (M : HvMem K),
    memFilterDeleteNode n d p m (M.mapVal f) = (memFilterDeleteNode n d p m M).map (HvMem.mapVal f) := by
  intro m
  induction m with
  | zero => intro M; rfl
  | succ m ih =>
    intro M
    unfold memFilterDeleteNode
    simp only [Option.bind_eq_bind, ih]
    homstep
    exact memFilterDeleteStep_hom ..

theorem memFilterDim_hom (hf : NumHom f) (x : ℕ → ℕ → K) (ref : ℕ → K) (n d i : ℕ) : ∀ (np aux c : ℕ) (M : HvMem K),
    memFilterDim (fun p k => f (x p k)) (fun k => f (ref k)) n d i np aux c (M.mapVal f) =
      (memFilterDim x ref n d i np aux c M).map (fun r => (r.1, r.2.mapVal f)) := by
  intro np
  induction np with
  | zero => intros; rfl
  | succ np ih =>
    intro aux c M
    unfold memFilterDim
    simp only [Option.bind_eq_bind]
    iterate 2 homstep
    simp only [hf.lt]
    refine iteHom rfl ?_
    rw [memFilterDeleteNode_hom]
    homstep
    simp only [mapVal_prev]
    homstep
    exact ih ..

theorem memFilterRef_hom (hf : NumHom f) (x : ℕ → ℕ → K) (ref : ℕ → K) (n d : ℕ) : ∀ (m c : ℕ) (M : HvMem K),
    memFilterRef (fun p k => f (x p k)) (fun k => f (ref k)) n d m c (M.mapVal f) =
      (memFilterRef x ref n d m c M).map (fun r => (r.1, r.2.mapVal f)) := by
  intro m
  induction m with
  | zero => intros; rfl
  | succ m ih =>
    intro c M
    unfold memFilterRef
    simp only [Option.bind_eq_bind, ih]
    homstep
    simp only [mapVal_prev]
    homstep
    exact memFilterDim_hom hf ..

theorem memBox_hom (hf : NumHom f) (x : ℕ → ℕ → K) (ref : ℕ → K) (n d p : ℕ) : ∀ m : ℕ,
    memBox (fun p k => f (x p k)) (fun k => f (ref k)) n d p m = (memBox x ref n d p m).map f := by
  intro m
  induction m with
  | zero => simp [memBox, hf.one]
  | succ m ih =>
    unfold memBox
    simp only [Option.bind_eq_bind, ih]
    iterate 3 homstep
    simp only [hf.sub, hf.mul, Option.map_some]

theorem fpliHvMem_hom (hf : NumHom f) (x : ℕ → ℕ → K) (d n : ℕ) (ref : ℕ → K) (ords : ℕ → List ℕ) (b0 : K) :
    fpliHvMem (fun p k => f (x p k)) d n (fun k => f (ref k)) ords (f b0) = (fpliHvMem x d n ref ords b0).map f := by
  unfold fpliHvMem
  simp only [Option.bind_eq_bind, memSetup_hom hf]
  homstep
  rw [memFilterRef_hom hf]
  homstep
  homstep
  · simp [hf.zero]
  · homstep
    · simp only [mapVal_next]
      homstep
      exact memBox_hom hf ..
    · rw [memRec_hom hf]
      homstep
      rfl

end

end Moo
