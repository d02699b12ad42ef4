import Verif.Lemmas.RGc
import Mathlib.Tactic.Ring
import Mathlib.Tactic.IntervalCases

/-!
# C109: the C functions of the R package and the garbage collector of R
-/

set_option autoImplicit false
set_option linter.unusedSectionVars false
set_option linter.unusedSimpArgs false

namespace Moo

section
variable {s0 s : RSt} {L : List (ℕ × ℕ × Bool)} {B : List ℕ} {α : Type} {Q : α → RSt → Prop} {J : RSt → Prop} {fl : Bool}

theorem w_intVector (hJ : fl = true → ∀ s L, RInv s0 s L B → J s) (h : RInv s0 s L B) {x : ℕ} {o : RObj} (hr : RReach s0 [] x) (ho : s0.obj x = some o) (ht : fl = true ∨ o.kind = .int) (f : ℕ → RProg α)
    (hf : (f o.len).wp fl Q J s) : (RP.intVector x >>= f).wp fl Q J s := by
  rw [RProg.wp_bind]
  exact w_inspect h hr ho _ (w_errorIf hJ h _ (ht.imp_right (fun ht => by simp [ht])) _ (fun _ => hf))

theorem w_doubleVector (hJ : fl = true → ∀ s L, RInv s0 s L B → J s) (h : RInv s0 s L B) {x : ℕ} {o : RObj} (hr : RReach s0 [] x) (ho : s0.obj x = some o) (ht : fl = true ∨ o.kind = .real) (f : ℕ → RProg α)
    (hf : (f o.len).wp fl Q J s) : (RP.doubleVector x >>= f).wp fl Q J s := by
  rw [RProg.wp_bind]
  exact w_inspect h hr ho _ (w_errorIf hJ h _ (ht.imp_right (fun ht => by simp [ht])) _ (fun _ => hf))

theorem w_doubleVectorOrNull (hJ : fl = true → ∀ s L, RInv s0 s L B → J s) (h : RInv s0 s L B) {x : ℕ} {o : RObj} (hr : RReach s0 [] x) (ho : s0.obj x = some o) (ht : fl = true ∨ (o.kind = .nil ∨ o.kind = .real)) (f : Option ℕ → RProg α)
    (hf : ∀ r, (f r).wp fl Q J s) : (RP.doubleVectorOrNull x >>= f).wp fl Q J s := by
  rw [RProg.wp_bind]
  refine w_inspect h hr ho _ ?_
  split_ifs
  · exact hf _
  · exact w_errorIf hJ h _ (ht.imp_right (fun ht => by rcases ht with ht | ht <;> simp_all)) _ (fun _ => hf _)

theorem w_doubleMatrix (hJ : fl = true → ∀ s L, RInv s0 s L B → J s) (h : RInv s0 s L B) {x : ℕ} {o : RObj} (hr : RReach s0 [] x) (ho : s0.obj x = some o) (ht : fl = true ∨ (o.kind = .real ∧ o.isMat = true)) (f : ℕ × ℕ → RProg α)
    (hf : (f (o.nrow, o.ncol)).wp fl Q J s) : (RP.doubleMatrix x >>= f).wp fl Q J s := by
  rw [RProg.wp_bind]
  exact w_inspect h hr ho _ (w_errorIf hJ h _ (ht.imp_right (fun ht => by simp [ht.1, ht.2])) _ (fun _ => hf))

theorem w_boolVector (hJ : fl = true → ∀ s L, RInv s0 s L B → J s) (h : RInv s0 s L B) {x : ℕ} {o : RObj} (hr : RReach s0 [] x) (ho : s0.obj x = some o) (ht : fl = true ∨ o.kind = .lgl) (f : ℕ × ℕ → RProg α)
    (hf : ∀ s' b, RInv s0 s' L (b :: B) → (f (b, o.len)).wp fl Q J s') : (RP.boolVector x >>= f).wp fl Q J s := by
  rw [RProg.wp_bind]
  refine w_inspect h hr ho _ (w_errorIf hJ h _ (ht.imp_right (fun ht => by simp [ht])) _ (fun _ => ?_))
  exact w_malloc h _ (fun s' b h' => w_useB h' b (by simp) _ (hf s' b h'))

theorem w_scalar (hJ : fl = true → ∀ s L, RInv s0 s L B → J s) (h : RInv s0 s L B) {x : ℕ} {o : RObj} (hr : RReach s0 [] x) (ho : s0.obj x = some o) (ht : fl = true ∨ o.na = false) (f : Unit → RProg α)
    (hf : (f ()).wp fl Q J s) : (RP.scalar x >>= f).wp fl Q J s := by
  rw [RProg.wp_bind]
  refine w_inspect h hr ho _ ?_
  have := w_errorIf (Q := fun a s => (f a).wp fl Q J s) hJ h o.na ht (fun _ => pure ()) (fun _ => hf)
  rw [RProg.wp_bind] at this
  exact this

theorem w_string (hJ : fl = true → ∀ s L, RInv s0 s L B → J s) (h : RInv s0 s L B) {x : ℕ} {o : RObj} (hr : RReach s0 [] x) (ho : s0.obj x = some o) (ht : fl = true ∨ (o.kind = .str ∧ o.len = 1)) (f : Unit → RProg α)
    (hf : (f ()).wp fl Q J s) : (RP.string x >>= f).wp fl Q J s := by
  rw [RProg.wp_bind]
  refine w_inspect h hr ho _ ?_
  have := w_errorIf (Q := fun a s => (f a).wp fl Q J s) hJ h (decide (o.kind ≠ .str) || decide (o.len ≠ 1)) (ht.imp_right (fun ht => by simp [ht.1, ht.2])) (fun _ => pure ()) (fun _ => hf)
  rw [RProg.wp_bind] at this
  exact this

theorem w_eafHelper (h : RInv s0 s L B) {x : ℕ} {o : RObj} (hr : RReach s0 [] x) (ho : s0.obj x = some o) (f : ℕ → RProg α)
    (hf : ∀ s' b, RInv s0 s' L (b :: B) → (f b).wp fl Q J s') : (RP.eafHelper x >>= f).wp fl Q J s := by
  rw [RProg.wp_bind]
  refine w_inspect h hr ho _ (w_malloc h _ (fun s1 b1 h1 => w_useB h1 b1 (by simp) _ (w_malloc h1 _ (fun s2 b2 h2 => ?_))))
  exact w_free h2 b1 (b2 :: B) (List.Perm.swap _ _ _) _ (fun s3 h3 => hf s3 b2 h3)

end

/-! ## The calls -/

/-- The 17 functions that the R package calls with `.Call` (r/src/init.h), with their arguments (numbers of R objects).  The other parameters are what the library
computes: the number of points of the surfaces, the number of rectangles, the polygons with colour and length, the numbers of rows and columns of the file; for `whv_hype_C` whether the
name of the distribution is known. -/
inductive RCall
  | eaf (totalpoints DATA CUMSIZES PERCENTILE : ℕ)
  | eafdiff (totalpoints DATA CUMSIZES INTERVALS : ℕ)
  | rectangles (nrow DATA CUMSIZES INTERVALS : ℕ)
  | polygon (polys : List (ℤ × ℕ)) (DATA CUMSIZES INTERVALS : ℕ)
  | readDatasets (ntotal nobj FILENAME : ℕ)
  | normalise (DATA RANGE LBOUND UBOUND MAXIMISE : ℕ)
  | isNondominated (DATA MAXIMISE KEEP_WEAKLY : ℕ)
  | paretoRanking (DATA : ℕ)
  | hypervolume (DATA REFERENCE : ℕ)
  | hvContributions (DATA REFERENCE : ℕ)
  | rectWeightedHv2d (DATA RECTANGLES REFERENCE : ℕ)
  | whvHype (dist : Bool) (DATA IDEAL REFERENCE NSAMPLES DIST SEED MU : ℕ)
  | metric (DATA REFERENCE MAXIMISE : ℕ)
  | avgHausdorff (DATA REFERENCE MAXIMISE P : ℕ)

/-- The program of a call; `nil` is `R_NilValue`. -/
def RCall.prog (nil : ℕ) : RCall → RProg ℕ
  | .eaf t a b c => RP.computeEaf t a b c
  | .eafdiff t a b c => RP.computeEafdiff t a b c
  | .rectangles n a b c => RP.computeRectangles nil n a b c
  | .polygon ps a b c => RP.computePolygon ps a b c
  | .readDatasets n m a => RP.readDatasets n m a
  | .normalise a b c d e => RP.normalise nil a b c d e
  | .isNondominated a b c => RP.isNondominated a b c
  | .paretoRanking a => RP.paretoRanking a
  | .hypervolume a b => RP.hypervolume a b
  | .hvContributions a b => RP.hvContributions a b
  | .rectWeightedHv2d a b c => RP.rectWeightedHv2d a b c
  | .whvHype k a b c d e f g => RP.whvHype k a b c d e f g
  | .metric a b c => RP.unaryMetric none a b c
  | .avgHausdorff a b c p => RP.unaryMetric (some p) a b c

/-- The arguments of a call. -/
def RCall.args : RCall → List ℕ
  | .eaf _ a b c | .eafdiff _ a b c | .rectangles _ a b c | .polygon _ a b c => [a, b, c]
  | .readDatasets _ _ a => [a]
  | .normalise a b c d e => [a, b, c, d, e]
  | .isNondominated a b c => [a, b, c]
  | .paretoRanking a => [a]
  | .hypervolume a b | .hvContributions a b => [a, b]
  | .rectWeightedHv2d a b c => [a, b, c]
  | .whvHype _ a b c d e f g => [a, b, c, d, e, f, g]
  | .metric a b c => [a, b, c]
  | .avgHausdorff a b c p => [a, b, c, p]

/-- The length of an R object, and its numbers of rows and columns. -/
def RSt.len (s : RSt) (x : ℕ) : ℕ := ((s.obj x).map RObj.len).getD 0
def RSt.nrow (s : RSt) (x : ℕ) : ℕ := ((s.obj x).map RObj.nrow).getD 0
def RSt.kind (s : RSt) (x : ℕ) : RKind := ((s.obj x).map RObj.kind).getD .nil
def RSt.isMat (s : RSt) (x : ℕ) : Bool := ((s.obj x).map RObj.isMat).getD false
def RSt.na (s : RSt) (x : ℕ) : Bool := ((s.obj x).map RObj.na).getD false
def RSt.ncol (s : RSt) (x : ℕ) : ℕ := ((s.obj x).map RObj.ncol).getD 0

/-- What the R code of the package ensures before the call: the lengths agree (assertions of the C code), and two objectives for polygons. -/
def RCall.lengthsOk (s : RSt) : RCall → Prop
  | .eafdiff _ a _ _ => 1 ≤ s.nrow a
  | .polygon _ a _ _ => s.nrow a = 2
  | .normalise a b c d e => s.len a = s.nrow a * s.ncol a ∧ s.nrow a = s.len c ∧ s.nrow a = s.len d ∧ s.nrow a = s.len e ∧ s.len b = 2
  | .isNondominated a b _ => s.nrow a = s.len b
  | .hypervolume a b | .hvContributions a b => s.nrow a = s.len b
  | .rectWeightedHv2d _ b c => s.nrow b = 5 ∧ s.len c = 2
  | .whvHype _ _ b c _ _ _ _ => s.len c = s.len b ∧ s.len c = 2
  | .metric a _ c | .avgHausdorff a _ c _ => s.nrow a = s.len c
  | _ => True

/-- The arguments have the types that the functions check. -/
def RCall.typesOk (s : RSt) : RCall → Prop
  | .eaf _ _ b c => s.kind b = .int ∧ (s.kind c = .nil ∨ s.kind c = .real)
  | .eafdiff _ _ b c | .rectangles _ _ b c | .polygon _ _ b c => s.kind b = .int ∧ s.na c = false
  | .readDatasets _ _ a => s.kind a = .str ∧ s.len a = 1
  | .normalise a b c d e => (s.kind a = .real ∧ s.isMat a = true) ∧ s.kind b = .real ∧ s.kind c = .real ∧ s.kind d = .real ∧ s.kind e = .lgl
  | .isNondominated a b c => (s.kind a = .real ∧ s.isMat a = true) ∧ s.kind b = .lgl ∧ s.na c = false
  | .paretoRanking a => s.kind a = .real ∧ s.isMat a = true
  | .hypervolume a b | .hvContributions a b => (s.kind a = .real ∧ s.isMat a = true) ∧ s.kind b = .real
  | .rectWeightedHv2d a b c => (s.kind a = .real ∧ s.isMat a = true) ∧ (s.kind b = .real ∧ s.isMat b = true) ∧ s.kind c = .real
  | .whvHype dist a b c d e f _ => (s.kind a = .real ∧ s.isMat a = true) ∧ s.kind b = .real ∧ s.kind c = .real ∧ s.na d = false ∧ (s.kind e = .str ∧ s.len e = 1) ∧ s.na f = false ∧ dist = true
  | .metric a _ c => (s.kind a = .real ∧ s.isMat a = true) ∧ s.kind c = .lgl
  | .avgHausdorff a _ c p => (s.kind a = .real ∧ s.isMat a = true) ∧ s.kind c = .lgl ∧ s.na p = false

/-- The calls during which no error of R can happen while a block from `malloc` is held. -/
def RCall.noBlocks : RCall → Bool
  | .paretoRanking _ | .hypervolume _ _ | .hvContributions _ _ | .rectWeightedHv2d _ _ _ | .whvHype _ _ _ _ _ _ _ _ => true
  | .metric _ _ _ | .normalise _ _ _ _ _ => true
  | _ => false

section
variable {s0 s : RSt} {L : List (ℕ × ℕ × Bool)} {B : List ℕ} {α : Type} {Q : α → RSt → Prop} {J : RSt → Prop} {fl : Bool}

theorem polyFill_ok (h : RInv s0 s L B) {left right lcol rcol : ℕ} (lN rN lCn rCn : ℕ) {b1 b2 b3 b4 : Bool} (hl : (left, lN * 2, b1) ∈ L) (hr : (right, rN * 2, b2) ∈ L)
    (hlc : (lcol, lCn, b3) ∈ L) (hrc : (rcol, rCn, b4) ∈ L) (ps : List (ℤ × ℕ)) (ll rl lc rc : ℕ) (h1 : lc + (RP.polyCount ps).1 ≤ lCn) (h2 : rc + (RP.polyCount ps).2.1 ≤ rCn)
    (h3 : ll + (RP.polyCount ps).2.2.1 ≤ lN) (h4 : rl + (RP.polyCount ps).2.2.2 ≤ rN) (Q' : Unit → RSt → Prop) (hQ : Q' () s) :
    (RP.polyFill left right lcol rcol lN rN ps ll rl lc rc).wp fl Q' J s := by
  induction ps generalizing ll rl lc rc with
  | nil => exact hQ
  | cons p ps ih =>
    obtain ⟨color, len⟩ := p
    unfold RP.polyFill
    unfold RP.polyCount at h1 h2 h3 h4
    by_cases hc : 1 ≤ color
    · simp only [if_pos hc] at h1 h2 h3 h4
      rw [if_pos hc]
      refine w_for _ _ (fun i hi Q'' hQ'' => ?_) _ ?_
      · have hi' := List.mem_range.1 hi
        rw [RProg.wp_bind]
        exact w_write h hl (by omega) _ (w_write h hl (by omega) _ hQ'')
      · rw [RProg.wp_bind]
        exact w_write h hlc (by omega) _ (ih _ _ _ _ (by omega) (by omega) (by omega) (by omega))
    · simp only [if_neg hc] at h1 h2 h3 h4
      rw [if_neg hc]
      refine w_for _ _ (fun i hi Q'' hQ'' => ?_) _ ?_
      · have hi' := List.mem_range.1 hi
        rw [RProg.wp_bind]
        exact w_write h hr (by omega) _ (w_write h hr (by omega) _ hQ'')
      · rw [RProg.wp_bind]
        exact w_write h hrc (by omega) _ (ih _ _ _ _ (by omega) (by omega) (by omega) (by omega))

end

theorem mat_index {tp m pos j : ℕ} (hp : pos < tp) (hj : j < m) : pos + j * tp < tp * m := by
  have : (j + 1) * tp ≤ m * tp := Nat.mul_le_mul_right _ hj
  rw [Nat.mul_comm tp m]
  linarith [Nat.succ_mul j tp]

theorem arg_obj {s : RSt} (hs : RStOk s) {x : ℕ} (hx : s.keep x) : RReach s [] x ∧ ∃ o, s.obj x = some o ∧ s.len x = o.len ∧ s.nrow x = o.nrow ∧ s.ncol x = o.ncol ∧
      s.kind x = o.kind ∧ s.isMat x = o.isMat ∧ s.na x = o.na := by
  obtain ⟨o, ho⟩ := Option.isSome_iff_exists.1 (hs x (.keep hx)).1
  exact ⟨.keep hx, o, ho, by simp [RSt.len, ho], by simp [RSt.nrow, ho], by simp [RSt.ncol, ho], by simp [RSt.kind, ho], by simp [RSt.isMat, ho], by simp [RSt.na, ho]⟩

/-- All executions of all calls. -/
theorem rcall_wp (s : RSt) (hs : RStOk s) (nil : ℕ) (hnil : s.keep nil) (c : RCall) (hargs : ∀ a ∈ c.args, s.keep a) (hlen : c.lengthsOk s)
    (fl : Bool) (hT : fl = true ∨ c.typesOk s) (J : RSt → Prop) (hJ0 : fl = true → ∀ s' L, RInv s s' L [] → J s') (hJ : c.noBlocks = false → fl = true → ∀ s' L B, RInv s s' L B → J s') :
    (c.prog nil).wp fl (RRetOk s) J s := by
  have h0 := RInv.init hs
  cases c with
  | eaf t a b c =>
    obtain ⟨ra, oa, ha, la, na, ca, ka, ma, za⟩ := arg_obj hs (hargs a (by simp [RCall.args]))
    obtain ⟨rb, ob, hb, lb, nb, cb, kb, mb, zb⟩ := arg_obj hs (hargs b (by simp [RCall.args]))
    obtain ⟨rc, oc, hc, lc, nc, cc, kc, mc, zc⟩ := arg_obj hs (hargs c (by simp [RCall.args]))
    simp only [RCall.typesOk, ka, ma, za, la, kb, mb, zb, lb, kc, mc, zc, lc] at hT
    have hJ := hJ rfl
    refine w_inspect h0 ra ha _ (w_intVector hJ0 h0 rb hb (hT.imp_right (fun t => by simp [t])) _ (w_doubleVectorOrNull hJ0 h0 rc hc (hT.imp_right (fun t => by simp [t])) _ (fun r => w_eafHelper h0 ra ha _ (fun s1 eaf h1 => ?_))))
    refine w_useB h1 eaf (by simp) _ (w_allocMatrix (fun e s L => hJ e s L _) h1 _ _ _ (fun s2 mat hm h2 => ?_))
    refine w_useB h2 eaf (by simp) _ (w_inspect h2 rc hc _ (w_for _ _ (fun pos hpos Q' hQ' => ?_) _ ?_))
    · refine w_forL _ _ (fun j hj Q'' hQ'' => ?_) _ hQ'
      exact w_write h2 (x := mat) (n := t * (oa.nrow + 1)) (b := true) (by simp) (mat_index (List.mem_range.1 hpos) (List.mem_range.1 hj)) _ hQ''
    · exact w_free h2 eaf [] (List.Perm.refl _) _ (fun s3 h3 => w_ret h3 (n := t * (oa.nrow + 1)) (b := true) (by simp) 1 rfl)
  | eafdiff t a b c =>
    obtain ⟨ra, oa, ha, la, na, ca, ka, ma, za⟩ := arg_obj hs (hargs a (by simp [RCall.args]))
    obtain ⟨rb, ob, hb, lb, nb, cb, kb, mb, zb⟩ := arg_obj hs (hargs b (by simp [RCall.args]))
    obtain ⟨rc, oc, hc, lc, nc, cc, kc, mc, zc⟩ := arg_obj hs (hargs c (by simp [RCall.args]))
    simp only [RCall.typesOk, ka, ma, za, la, kb, mb, zb, lb, kc, mc, zc, lc] at hT
    have hJ := hJ rfl
    have hn : 1 ≤ oa.nrow := by rw [← na]; exact hlen
    refine w_inspect h0 ra ha _ (w_intVector hJ0 h0 rb hb (hT.imp_right (fun t => by simp [t])) _ (w_scalar hJ0 h0 rc hc (hT.imp_right (fun t => by simp [t])) _ (w_eafHelper h0 ra ha _ (fun s1 eaf h1 => ?_))))
    refine w_useB h1 eaf (by simp) _ (w_allocMatrix (fun e s L => hJ e s L _) h1 _ _ _ (fun s2 mat hm h2 => ?_))
    refine w_useB h2 eaf (by simp) _ (w_for _ _ (fun pos hpos Q' hQ' => ?_) _ (w_for _ _ (fun i hi Q' hQ' => ?_) _ ?_))
    · refine w_forL _ _ (fun j hj Q'' hQ'' => ?_) _ hQ'
      exact w_write h2 (x := mat) (n := t * (oa.nrow + 1)) (b := true) (by simp)
        (mat_index (List.mem_range.1 hpos) (by have := List.mem_range.1 hj; omega)) _ hQ''
    · refine w_write h2 (x := mat) (n := t * (oa.nrow + 1)) (b := true) (by simp) ?_ _ hQ'
      have e : t + (oa.nrow - 1) * t + i = i + oa.nrow * t := by
        obtain ⟨k, hk⟩ : ∃ k, oa.nrow = k + 1 := ⟨oa.nrow - 1, by omega⟩
        rw [hk]
        simp only [Nat.add_sub_cancel]
        ring
      rw [e]
      exact mat_index (List.mem_range.1 hi) (by omega)
    · exact w_free h2 eaf [] (List.Perm.refl _) _ (fun s3 h3 => w_ret h3 (n := t * (oa.nrow + 1)) (b := true) (by simp) 1 rfl)
  | rectangles n a b c =>
    obtain ⟨ra, oa, ha, la, na, ca, ka, ma, za⟩ := arg_obj hs (hargs a (by simp [RCall.args]))
    obtain ⟨rb, ob, hb, lb, nb, cb, kb, mb, zb⟩ := arg_obj hs (hargs b (by simp [RCall.args]))
    obtain ⟨rc, oc, hc, lc, nc, cc, kc, mc, zc⟩ := arg_obj hs (hargs c (by simp [RCall.args]))
    simp only [RCall.typesOk, ka, ma, za, la, kb, mb, zb, lb, kc, mc, zc, lc] at hT
    have hJ := hJ rfl
    refine w_inspect h0 ra ha _ (w_intVector hJ0 h0 rb hb (hT.imp_right (fun t => by simp [t])) _ (w_scalar hJ0 h0 rc hc (hT.imp_right (fun t => by simp [t])) _ (w_eafHelper h0 ra ha _ (fun s1 eaf h1 => ?_))))
    refine w_useB h1 eaf (by simp) _ (w_malloc h1 _ (fun s2 rects h2 => w_malloc h2 _ (fun s3 xy h3 => w_malloc h3 _ (fun s4 col h4 => ?_))))
    refine w_free h4 eaf [col, xy, rects] (List.perm_append_singleton eaf [col, xy, rects]) _ (fun s5 h5 => ?_)
    refine w_useB h5 rects (by simp) _ (w_allocMatrix (fun e s L => hJ e s L _) h5 _ _ _ (fun s6 res hm h6 => ?_))
    refine w_useB h6 xy (by simp) _ (w_for _ _ (fun pos hpos Q' hQ' => ?_) _ ?_)
    · refine w_forL _ _ (fun j hj Q'' hQ'' => ?_) _ hQ'
      refine w_write h6 (x := res) (n := n * (2 * oa.nrow + 1)) (b := true) (by simp) ?_ _ hQ''
      rw [Nat.mul_comm n j]
      exact mat_index (List.mem_range.1 hpos) (by have := List.mem_range.1 hj; omega)
    refine w_free h6 xy [col, rects] (List.Perm.swap _ _ _) _ (fun s7 h7 => w_useB h7 col (by simp) _ (w_for _ _ (fun i hi Q' hQ' => ?_) _ ?_))
    · refine w_write h7 (x := res) (n := n * (2 * oa.nrow + 1)) (b := true) (by simp) ?_ _ hQ'
      have e : i + n * 2 * oa.nrow = i + (2 * oa.nrow) * n := by ring
      rw [e]
      exact mat_index (List.mem_range.1 hi) (by omega)
    refine w_free h7 col [rects] (List.Perm.refl _) _ (fun s8 h8 => w_free h8 rects [] (List.Perm.refl _) _ (fun s9 h9 => ?_))
    refine w_setColnames hJ0 h9 5 (m := res) (n := n * (2 * oa.nrow + 1)) (by simp) hm hnil _ (fun s10 h10 => ?_)
    exact w_ret h10 (n := n * (2 * oa.nrow + 1)) (b := false) (by simp) 1 rfl
  | polygon ps a b c =>
    obtain ⟨ra, oa, ha, la, na, ca, ka, ma, za⟩ := arg_obj hs (hargs a (by simp [RCall.args]))
    obtain ⟨rb, ob, hb, lb, nb, cb, kb, mb, zb⟩ := arg_obj hs (hargs b (by simp [RCall.args]))
    obtain ⟨rc, oc, hc, lc, nc, cc, kc, mc, zc⟩ := arg_obj hs (hargs c (by simp [RCall.args]))
    simp only [RCall.typesOk, ka, ma, za, la, kb, mb, zb, lb, kc, mc, zc, lc] at hT
    have hJ := hJ rfl
    have hn : oa.nrow = 2 := by rw [← na]; exact hlen
    refine w_inspect h0 ra ha _ (w_intVector hJ0 h0 rb hb (hT.imp_right (fun t => by simp [t])) _ (w_scalar hJ0 h0 rc hc (hT.imp_right (fun t => by simp [t])) _ (w_eafHelper h0 ra ha _ (fun s1 eaf h1 => ?_))))
    refine w_useB h1 eaf (by simp) _ (w_malloc h1 _ (fun s2 p h2 => w_malloc h2 _ (fun s3 xy h3 => w_malloc h3 _ (fun s4 col h4 => ?_))))
    refine w_free h4 eaf [col, xy, p] (List.perm_append_singleton eaf [col, xy, p]) _ (fun s5 h5 => ?_)
    refine w_useB h5 xy (by simp) _ (w_useB h5 col (by simp) _ ?_)
    rw [hn]
    refine w_allocVector (fun e s L => hJ e s L _) h5 .real _ _ (fun s6 lcol hlc h6 => w_allocVector (fun e s L => hJ e s L _) h6 .real _ _ (fun s7 rcol hrc h7 => ?_))
    refine w_allocMatrix (fun e s L => hJ e s L _) h7 _ _ _ (fun s8 left hl h8 => w_allocMatrix (fun e s L => hJ e s L _) h8 _ _ _ (fun s9 right hr h9 => ?_))
    refine w_useB h9 xy (by simp) _ (w_useB h9 col (by simp) _ ?_)
    rw [RProg.wp_bind]
    refine polyFill_ok h9 _ _ (RP.polyCount ps).1 (RP.polyCount ps).2.1 (b1 := true) (b2 := true) (b3 := true) (b4 := true) (by simp) (by simp) (by simp) (by simp)
      ps 0 0 0 0 (by omega) (by omega) (by omega) (by omega) _ ?_
    refine w_free h9 col [xy, p] (List.Perm.refl _) _ (fun s10 h10 => w_free h10 xy [p] (List.Perm.refl _) _ (fun s11 h11 => w_free h11 p [] (List.Perm.refl _) _ (fun s12 h12 => ?_)))
    refine w_install hJ0 h12 _ (fun s13 h13 => ?_)
    refine w_setAttr hJ0 h13 "col" (x := left) (y := lcol) (n := (RP.polyCount ps).2.2.1 * 2) (m := (RP.polyCount ps).1) (b := true) (c := true) (by simp) hl (by simp) _ (fun s14 h14 => ?_)
    refine w_install hJ0 h14 _ (fun s15 h15 => ?_)
    refine w_setAttr hJ0 h15 "col" (x := right) (y := rcol) (n := (RP.polyCount ps).2.2.2 * 2) (m := (RP.polyCount ps).2.1) (b := false) (c := false) (by simp) hr (by simp) _ (fun s16 h16 => ?_)
    refine w_allocVector hJ0 h16 .vec 2 _ (fun s17 poly hp h17 => ?_)
    refine w_setElt h17 (x := poly) (y := left) (n := 2) (m := (RP.polyCount ps).2.2.1 * 2) (b := true) (c := false) (by simp) hp (by omega) (by simp) _ (fun s18 h18 => ?_)
    refine w_setElt h18 (x := poly) (y := right) (n := 2) (m := (RP.polyCount ps).2.2.2 * 2) (b := true) (c := false) (by simp) hp (by omega) (by simp) _ (fun s19 h19 => ?_)
    refine w_allocVector hJ0 h19 .str 2 _ (fun s20 names hn h20 => ?_)
    refine w_pushString hJ0 h20 (x := names) (n := 2) (b := true) (by simp) hn (by omega) _ (fun s21 h21 => ?_)
    refine w_pushString hJ0 h21 (x := names) (n := 2) (b := true) (by simp) hn (by omega) _ (fun s22 h22 => ?_)
    refine w_setAttr hJ0 h22 "names" (x := poly) (y := names) (n := 2) (m := 2) (b := true) (c := true) (by simp) hp (by simp) _ (fun s23 h23 => ?_)
    exact w_ret h23 (n := 2) (b := false) (by simp) 6 rfl
  | readDatasets n m a =>
    obtain ⟨ra, oa, ha, la, na, ca, ka, ma, za⟩ := arg_obj hs (hargs a (by simp [RCall.args]))
    simp only [RCall.typesOk, ka, ma, za, la] at hT
    have hJ := hJ rfl
    refine w_string hJ0 h0 ra ha (hT.imp_right (fun t => by simp [t])) _ (w_malloc h0 _ (fun s1 data h1 => w_malloc h1 _ (fun s2 cum h2 => ?_)))
    refine w_useB h2 cum (by simp) _ (w_allocMatrix (fun e s L => hJ e s L _) h2 _ _ _ (fun s3 mat hm h3 => ?_))
    have e : n * (m + 1) = n * m + n := by ring
    refine w_useB h3 data (by simp) _ (w_for _ _ (fun i hi Q' hQ' => ?_) _ (w_useB h3 cum (by simp) _ (w_for _ _ (fun i hi Q' hQ' => ?_) _ ?_)))
    · exact w_write h3 (x := mat) (n := n * (m + 1)) (b := true) (by simp) (by have := List.mem_range.1 hi; omega) _ hQ'
    · exact w_write h3 (x := mat) (n := n * (m + 1)) (b := true) (by simp) (by have := List.mem_range.1 hi; omega) _ hQ'
    · refine w_free h3 data [cum] (List.Perm.swap _ _ _) _ (fun s4 h4 => w_free h4 cum [] (List.Perm.refl _) _ (fun s5 h5 => ?_))
      exact w_ret h5 (n := n * (m + 1)) (b := true) (by simp) 1 rfl
  | normalise a b c d e =>
    obtain ⟨ra, oa, ha, la, na, ca, ka, ma, za⟩ := arg_obj hs (hargs a (by simp [RCall.args]))
    obtain ⟨rb, ob, hb, lb, nb, cb, kb, mb, zb⟩ := arg_obj hs (hargs b (by simp [RCall.args]))
    obtain ⟨rc, oc, hc, lc, nc, cc, kc, mc, zc⟩ := arg_obj hs (hargs c (by simp [RCall.args]))
    obtain ⟨rd, od, hd, ld, nd, cd, kd, md, zd⟩ := arg_obj hs (hargs d (by simp [RCall.args]))
    obtain ⟨re, oe, he, le, ne, ce, ke, me, ze⟩ := arg_obj hs (hargs e (by simp [RCall.args]))
    simp only [RCall.typesOk, ka, ma, za, la, kb, mb, zb, lb, kc, mc, zc, lc, kd, md, zd, ld, ke, me, ze, le] at hT
    simp only [RCall.lengthsOk] at hlen
    rw [la, na, ca, lb, lc, ld, le] at hlen
    refine w_doubleMatrix hJ0 h0 ra ha (hT.imp_right (fun t => by simp [t])) _ (w_doubleVector hJ0 h0 rb hb (hT.imp_right (fun t => by simp [t])) _ (w_doubleVector hJ0 h0 rc hc (hT.imp_right (fun t => by simp [t])) _ (w_doubleVector hJ0 h0 rd hd (hT.imp_right (fun t => by simp [t])) _ (w_boolVector hJ0 h0 re he (hT.imp_right (fun t => by simp [t])) _ (fun s1 mx h1 => ?_)))))
    refine w_assert _ (by simp [hlen.2.1]) _ (w_assert _ (by simp [hlen.2.2.1]) _ (w_assert _ (by simp [hlen.2.2.2.1]) _ (w_assert _ (by simp [hlen.2.2.2.2]) _ ?_)))
    refine w_useB h1 mx (by simp) _ (w_for _ _ (fun i hi Q' hQ' => ?_) _ ?_)
    · exact ⟨oa, (h1.same a ra).trans ha, by have := List.mem_range.1 hi; rw [hlen.1]; exact this, hQ'⟩
    · refine w_free h1 mx [] (List.Perm.refl _) _ (fun s2 h2 => ⟨by omega, h2.pst, by simpa using h2.blocks, h2.same, fun y hy => (h2.closed y ?_).1⟩)
      have : RReach s2 [nil] y := hy
      clear hy
      induction this with
      | keep h' => exact .keep h'
      | prot h' => exact .prot h'
      | arg h' => rw [List.mem_singleton] at h'; rw [h']; exact h2.reach_old (.keep hnil)
      | elt _ h1 h2 ih => exact .elt ih h1 h2
      | attr _ h1 h2 ih => exact .attr ih h1 h2
  | isNondominated a b c =>
    obtain ⟨ra, oa, ha, la, na, ca, ka, ma, za⟩ := arg_obj hs (hargs a (by simp [RCall.args]))
    obtain ⟨rb, ob, hb, lb, nb, cb, kb, mb, zb⟩ := arg_obj hs (hargs b (by simp [RCall.args]))
    obtain ⟨rc, oc, hc, lc, nc, cc, kc, mc, zc⟩ := arg_obj hs (hargs c (by simp [RCall.args]))
    simp only [RCall.typesOk, ka, ma, za, la, kb, mb, zb, lb, kc, mc, zc, lc] at hT
    simp only [RCall.lengthsOk] at hlen
    rw [na, lb] at hlen
    have hJ := hJ rfl
    refine w_doubleMatrix hJ0 h0 ra ha (hT.imp_right (fun t => by simp [t])) _ (w_boolVector hJ0 h0 rb hb (hT.imp_right (fun t => by simp [t])) _ (fun s1 mx h1 => ?_))
    refine w_scalar (fun e s L => hJ e s L _) h1 rc hc (hT.imp_right (fun t => by simp [t])) _ (w_assert _ (by simp [hlen]) _ (w_useB h1 mx (by simp) _ (w_inspect h1 ra ha _ (w_malloc h1 _ (fun s2 nd h2 => ?_)))))
    refine w_free h2 mx [nd] (List.Perm.swap _ _ _) _ (fun s3 h3 => w_allocVector (fun e s L => hJ e s L _) h3 .lgl _ _ (fun s4 res hr h4 => ?_))
    refine w_useB h4 nd (by simp) _ (w_for _ _ (fun i hi Q' hQ' => ?_) _ ?_)
    · exact w_write h4 (x := res) (n := oa.ncol) (b := true) (by simp) (List.mem_range.1 hi) _ hQ'
    · exact w_free h4 nd [] (List.Perm.refl _) _ (fun s5 h5 => w_ret h5 (n := oa.ncol) (b := true) (by simp) 1 rfl)
  | paretoRanking a =>
    obtain ⟨ra, oa, ha, la, na, ca, ka, ma, za⟩ := arg_obj hs (hargs a (by simp [RCall.args]))
    simp only [RCall.typesOk, ka, ma, za, la] at hT
    refine w_doubleMatrix hJ0 h0 ra ha (hT.imp_right (fun t => by simp [t])) _ (w_allocVector hJ0 h0 .int _ _ (fun s1 rank hr h1 => ?_))
    refine w_inspect h1 ra ha _ (w_malloc h1 _ (fun s2 rank2 h2 => w_useB h2 rank2 (by simp) _ (w_for _ _ (fun i hi Q' hQ' => ?_) _ ?_)))
    · exact w_write h2 (x := rank) (n := oa.ncol) (b := true) (by simp) (List.mem_range.1 hi) _ hQ'
    · exact w_free h2 rank2 [] (List.Perm.refl _) _ (fun s5 h5 => w_ret h5 (n := oa.ncol) (b := true) (by simp) 1 rfl)
  | hypervolume a b =>
    obtain ⟨ra, oa, ha, la, na, ca, ka, ma, za⟩ := arg_obj hs (hargs a (by simp [RCall.args]))
    obtain ⟨rb, ob, hb, lb, nb, cb, kb, mb, zb⟩ := arg_obj hs (hargs b (by simp [RCall.args]))
    simp only [RCall.typesOk, ka, ma, za, la, kb, mb, zb, lb] at hT
    simp only [RCall.lengthsOk] at hlen
    rw [na, lb] at hlen
    exact w_doubleMatrix hJ0 h0 ra ha (hT.imp_right (fun t => by simp [t])) _ (w_doubleVector hJ0 h0 rb hb (hT.imp_right (fun t => by simp [t])) _ (w_assert _ (by simp [hlen]) _ (w_retScalar hJ0 h0 _ _)))
  | hvContributions a b =>
    obtain ⟨ra, oa, ha, la, na, ca, ka, ma, za⟩ := arg_obj hs (hargs a (by simp [RCall.args]))
    obtain ⟨rb, ob, hb, lb, nb, cb, kb, mb, zb⟩ := arg_obj hs (hargs b (by simp [RCall.args]))
    simp only [RCall.typesOk, ka, ma, za, la, kb, mb, zb, lb] at hT
    simp only [RCall.lengthsOk] at hlen
    rw [na, lb] at hlen
    refine w_doubleMatrix hJ0 h0 ra ha (hT.imp_right (fun t => by simp [t])) _ (w_doubleVector hJ0 h0 rb hb (hT.imp_right (fun t => by simp [t])) _ (w_assert _ (by simp [hlen]) _ (w_allocVector hJ0 h0 .real _ _ (fun s1 hv hr h1 => ?_))))
    refine w_inspect h1 ra ha _ (w_inspect h1 rb hb _ (w_for _ _ (fun i hi Q' hQ' => ?_) _ ?_))
    · exact w_write h1 (x := hv) (n := oa.ncol) (b := true) (by simp) (List.mem_range.1 hi) _ hQ'
    · exact w_ret h1 (n := oa.ncol) (b := true) (by simp) 1 rfl
  | rectWeightedHv2d a b c =>
    obtain ⟨ra, oa, ha, la, na, ca, ka, ma, za⟩ := arg_obj hs (hargs a (by simp [RCall.args]))
    obtain ⟨rb, ob, hb, lb, nb, cb, kb, mb, zb⟩ := arg_obj hs (hargs b (by simp [RCall.args]))
    obtain ⟨rc, oc, hc, lc, nc, cc, kc, mc, zc⟩ := arg_obj hs (hargs c (by simp [RCall.args]))
    simp only [RCall.typesOk, ka, ma, za, la, kb, mb, zb, lb, kc, mc, zc, lc] at hT
    simp only [RCall.lengthsOk] at hlen
    rw [nb, lc] at hlen
    exact w_doubleMatrix hJ0 h0 ra ha (hT.imp_right (fun t => by simp [t])) _ (w_doubleMatrix hJ0 h0 rb hb (hT.imp_right (fun t => by simp [t])) _ (w_doubleVector hJ0 h0 rc hc (hT.imp_right (fun t => by simp [t])) _ (w_assert _ (by simp [hlen.1]) _
      (w_assert _ (by simp [hlen.2]) _ (w_retScalar hJ0 h0 _ _)))))
  | whvHype k a b c d e f g =>
    obtain ⟨ra, oa, ha, la, na, ca, ka, ma, za⟩ := arg_obj hs (hargs a (by simp [RCall.args]))
    obtain ⟨rb, ob, hb, lb, nb, cb, kb, mb, zb⟩ := arg_obj hs (hargs b (by simp [RCall.args]))
    obtain ⟨rc, oc, hc, lc, nc, cc, kc, mc, zc⟩ := arg_obj hs (hargs c (by simp [RCall.args]))
    obtain ⟨rd, od, hd, ld, nd, cd, kd, md, zd⟩ := arg_obj hs (hargs d (by simp [RCall.args]))
    obtain ⟨re, oe, he, le, ne, ce, ke, me, ze⟩ := arg_obj hs (hargs e (by simp [RCall.args]))
    obtain ⟨rf, of, hf, lf, nf, cf, kf, mf, zf⟩ := arg_obj hs (hargs f (by simp [RCall.args]))
    obtain ⟨rg, og, hg, lg, ng, cg, kg, mg, zg⟩ := arg_obj hs (hargs g (by simp [RCall.args]))
    simp only [RCall.typesOk, ka, ma, za, la, kb, mb, zb, lb, kc, mc, zc, lc, kd, md, zd, ld, ke, me, ze, le, kf, mf, zf, lf, kg, mg, zg, lg] at hT
    simp only [RCall.lengthsOk] at hlen
    rw [lb, lc] at hlen
    exact w_doubleMatrix hJ0 h0 ra ha (hT.imp_right (fun t => by simp [t])) _ (w_doubleVector hJ0 h0 rb hb (hT.imp_right (fun t => by simp [t])) _ (w_doubleVector hJ0 h0 rc hc (hT.imp_right (fun t => by simp [t])) _ (w_scalar hJ0 h0 rd hd (hT.imp_right (fun t => by simp [t])) _ (w_assert _ (by simp [hlen.1]) _
      (w_assert _ (by simp [hlen.2]) _ (w_string hJ0 h0 re he (hT.imp_right (fun t => by simp [t])) _ (w_scalar hJ0 h0 rf hf (hT.imp_right (fun t => by simp [t])) _ (w_errorIf hJ0 h0 _ (hT.imp_right (fun t => by simp [t])) _ (fun _ => w_inspect h0 rg hg _ (w_retScalar hJ0 h0 _ _))))))))))
  | metric a b c =>
    obtain ⟨ra, oa, ha, la, na, ca, ka, ma, za⟩ := arg_obj hs (hargs a (by simp [RCall.args]))
    obtain ⟨rb, ob, hb, lb, nb, cb, kb, mb, zb⟩ := arg_obj hs (hargs b (by simp [RCall.args]))
    obtain ⟨rc, oc, hc, lc, nc, cc, kc, mc, zc⟩ := arg_obj hs (hargs c (by simp [RCall.args]))
    simp only [RCall.typesOk, ka, ma, za, la, kb, mb, zb, lb, kc, mc, zc, lc] at hT
    simp only [RCall.lengthsOk] at hlen
    rw [na, lc] at hlen
    refine w_doubleMatrix hJ0 h0 ra ha (hT.imp_right (fun t => by simp [t])) _ (w_inspect h0 rb hb _ (w_boolVector hJ0 h0 rc hc (hT.imp_right (fun t => by simp [t])) _ (fun s1 mx h1 => w_assert _ (by simp [hlen]) _ ?_)))
    exact w_useB h1 mx (by simp) _ (w_free h1 mx [] (List.Perm.refl _) _ (fun s2 h2 => w_retScalar hJ0 h2 _ _))
  | avgHausdorff a b c p =>
    obtain ⟨ra, oa, ha, la, na, ca, ka, ma, za⟩ := arg_obj hs (hargs a (by simp [RCall.args]))
    obtain ⟨rb, ob, hb, lb, nb, cb, kb, mb, zb⟩ := arg_obj hs (hargs b (by simp [RCall.args]))
    obtain ⟨rc, oc, hc, lc, nc, cc, kc, mc, zc⟩ := arg_obj hs (hargs c (by simp [RCall.args]))
    obtain ⟨rp, op, hp, lp, np, cp, kp, mp, zp⟩ := arg_obj hs (hargs p (by simp [RCall.args]))
    simp only [RCall.typesOk, ka, ma, za, la, kb, mb, zb, lb, kc, mc, zc, lc, kp, mp, zp, lp] at hT
    simp only [RCall.lengthsOk] at hlen
    rw [na, lc] at hlen
    have hJ := hJ rfl
    refine w_doubleMatrix hJ0 h0 ra ha (hT.imp_right (fun t => by simp [t])) _ (w_inspect h0 rb hb _ (w_boolVector hJ0 h0 rc hc (hT.imp_right (fun t => by simp [t])) _ (fun s1 mx h1 => w_assert _ (by simp [hlen]) _ ?_)))
    exact w_scalar (fun e s L => hJ e s L _) h1 rp hp (hT.imp_right (fun t => by simp [t])) _ (w_useB h1 mx (by simp) _ (w_free h1 mx [] (List.Perm.refl _) _ (fun s2 h2 => w_retScalar hJ0 h2 _ _)))

/-- **C109.**  For each of the functions of the package, whenever the garbage collector runs and whatever it releases of what R cannot reach, and whichever allocations by R fail: the call
ends either with a value or with an error of R, without ever using a released object, an index outside of an object, or a block that is not allocated.  If it returns, the stack of protected
objects is as before, all blocks it got from `malloc` have been released once, the result and everything it refers to exists, and nothing that R had has been released or has got other elements or
attributes. -/
theorem C109_gc_safe (s : RSt) (hs : RStOk s) (nil : ℕ) (hnil : s.keep nil) (c : RCall) (hargs : ∀ a ∈ c.args, s.keep a) (hlen : c.lengthsOk s) (r : ROut ℕ)
    (h : RExec true (c.prog nil) s r) :
    (∃ x s', r = .ret x s' ∧ s'.pst = s.pst ∧ s'.blocks.Perm s.blocks ∧ (∀ y, RReach s [] y → s'.obj y = s.obj y) ∧ ∀ y, RReach s' [x] y → (s'.obj y).isSome) ∨
    (∃ s', r = .err s' ∧ ∀ y, RReach s [] y → s'.obj y = s.obj y) := by
  have := h.sound (rcall_wp s hs nil hnil c hargs hlen true (.inl rfl) (RErrOk s) (fun _ _ _ h => h.err) (fun _ _ _ _ _ h => h.err))
  cases r with
  | ret x s' => exact .inl ⟨x, s', rfl, this⟩
  | err s' => exact .inr ⟨s', rfl, this⟩
  | ub e => exact absurd this id

/-- **C109.**  The functions for the Pareto ranks, the hypervolume and its contributions, the weighted hypervolumes, the normalisation and the epsilon, IGD and IGD+ indicators do not leak memory either when they
end with an error of R. -/
theorem C109_no_leak_on_error (s : RSt) (hs : RStOk s) (nil : ℕ) (hnil : s.keep nil) (c : RCall) (hargs : ∀ a ∈ c.args, s.keep a) (hlen : c.lengthsOk s) (hc : c.noBlocks = true) (s' : RSt)
    (h : RExec true (c.prog nil) s (.err s')) : s'.blocks.Perm s.blocks :=
  h.sound (rcall_wp s hs nil hnil c hargs hlen true (.inl rfl) (fun s' => s'.blocks.Perm s.blocks) (fun _ _ _ h => by simpa using h.blocks) (by rw [hc]; simp))

/-! ## Every call can return -/

/-- The collector may do nothing. -/
theorem gcStep_refl (s : RSt) (e : List ℕ) : RGcStep s e s := ⟨s.obj, rfl, fun _ => .inl rfl⟩

/-- Executions exist: every program has one (errors included). -/
theorem C109_executions_exist {α : Type} (fail : Bool) (p : RProg α) (s : RSt) : ∃ r, RExec fail p s r := by
  induction p generalizing s with
  | pure a => exact ⟨_, .pure⟩
  | jump => exact ⟨_, .jump⟩
  | abort => exact ⟨_, .abort⟩
  | alloc o k ih => obtain ⟨r, h⟩ := ih _ _; exact ⟨r, .alloc (gcStep_refl s []) h⟩
  | protect x k ih =>
    cases h : s.obj x with
    | none => exact ⟨_, .protectUb h⟩
    | some o => obtain ⟨r, h'⟩ := ih _; exact ⟨r, .protect (by rw [h]; rfl) h'⟩
  | unprotect n k ih =>
    by_cases h : n ≤ s.pst.length
    · obtain ⟨r, h'⟩ := ih _; exact ⟨r, .unprotect h h'⟩
    · exact ⟨_, .unprotectUb h⟩
  | inspect x k ih =>
    cases h : s.obj x with
    | none => exact ⟨_, .inspectUb h⟩
    | some o => obtain ⟨r, h'⟩ := ih o s; exact ⟨r, .inspect h h'⟩
  | write x i k ih =>
    cases h : s.obj x with
    | none => exact ⟨_, .writeUb h⟩
    | some o =>
      by_cases hi : i < o.len
      · obtain ⟨r, h'⟩ := ih s; exact ⟨r, .write h hi h'⟩
      · exact ⟨_, .writeOob h hi⟩
  | setElt x i y k ih =>
    cases h : s.obj x with
    | none => exact ⟨_, .setEltUb (.inl h)⟩
    | some o =>
      cases hy : s.obj y with
      | none => exact ⟨_, .setEltUb (.inr hy)⟩
      | some oy =>
        by_cases hi : i < o.len
        · obtain ⟨r, h'⟩ := ih _; exact ⟨r, .setElt h hi (by rw [hy]; rfl) h'⟩
        · exact ⟨_, .setEltOob h hi⟩
  | setAttr x a y k ih =>
    cases h : s.obj x with
    | none => exact ⟨_, .setAttrUb (.inl h)⟩
    | some o =>
      cases hy : s.obj y with
      | none => exact ⟨_, .setAttrUb (.inr hy)⟩
      | some oy => obtain ⟨r, h'⟩ := ih _; exact ⟨r, .setAttr h (by rw [hy]; rfl) (gcStep_refl s _) h'⟩
  | getAttr x a k ih =>
    cases h : s.obj x with
    | none => exact ⟨_, .getAttrUb h⟩
    | some o => obtain ⟨r, h'⟩ := ih _ s; exact ⟨r, .getAttr h h'⟩
  | install k ih => obtain ⟨r, h⟩ := ih s; exact ⟨r, .install (gcStep_refl s []) h⟩
  | malloc k ih => obtain ⟨r, h⟩ := ih _ _; exact ⟨r, .malloc h⟩
  | useB b k ih =>
    by_cases h : b ∈ s.blocks
    · obtain ⟨r, h'⟩ := ih s; exact ⟨r, .useB h h'⟩
    · exact ⟨_, .useBUb h⟩
  | free b k ih =>
    by_cases h : b ∈ s.blocks
    · obtain ⟨r, h'⟩ := ih _; exact ⟨r, .free h h'⟩
    · exact ⟨_, .freeUb h⟩

/-- **C109.**  If the arguments have the types that are checked and R does not run out of memory, the call returns, whatever the garbage collector does; and there is such an execution. -/
theorem C109_returns (s : RSt) (hs : RStOk s) (nil : ℕ) (hnil : s.keep nil) (c : RCall) (hargs : ∀ a ∈ c.args, s.keep a) (hlen : c.lengthsOk s) (ht : c.typesOk s) :
    (∀ r, RExec false (c.prog nil) s r → ∃ x s', r = .ret x s' ∧ s'.pst = s.pst ∧ s'.blocks.Perm s.blocks ∧ ∀ y, RReach s' [x] y → (s'.obj y).isSome) ∧
    ∃ x s', RExec false (c.prog nil) s (.ret x s') := by
  have key : ∀ r, RExec false (c.prog nil) s r → ∃ x s', r = .ret x s' ∧ s'.pst = s.pst ∧ s'.blocks.Perm s.blocks ∧ ∀ y, RReach s' [x] y → (s'.obj y).isSome := by
    intro r h
    have := h.sound (rcall_wp s hs nil hnil c hargs hlen false (.inr ht) (fun _ => False) (by simp) (by simp))
    cases r with
    | ret x s' => exact ⟨x, s', rfl, this.1, this.2.1, this.2.2.2⟩
    | err s' => exact absurd this id
    | ub e => exact absurd this id
  refine ⟨key, ?_⟩
  obtain ⟨r, h⟩ := C109_executions_exist false (c.prog nil) s
  obtain ⟨x, s', rfl, _⟩ := key r h
  exact ⟨x, s', h⟩

/-- Arguments of wrong types: an error of R. -/
theorem C109_type_error (s : RSt) (hs : RStOk s) (a b : ℕ) (ha : s.keep a) (hb : s.kind a ≠ .real ∨ s.isMat a = false) (r : ROut ℕ) (h : RExec true ((RCall.hypervolume a b).prog 0) s r) :
    r = .err s := by
  obtain ⟨-, oa, hoa, -, -, -, ka, ma, -⟩ := arg_obj hs ha
  have hw : ((RCall.hypervolume a b).prog 0).wp true (fun _ _ => False) (fun s' => s' = s) s := by
    refine ⟨oa, hoa, ?_⟩
    show ((RP.errorIf (decide (oa.kind ≠ .real) || !oa.isMat)).bind _).bind _ |>.wp true _ _ s
    have : (decide (oa.kind ≠ .real) || !oa.isMat) = true := by
      rw [← ka, ← ma]
      rcases hb with hb | hb <;> simp [hb]
    rw [this]
    exact rfl
  have := h.sound hw
  cases r with
  | ret x s' => exact absurd this id
  | err s' => exact congrArg _ this
  | ub e => exact absurd this id

/-! ## Concrete states -/

/-- A state with NULL (0), a matrix of 2 rows and 3 columns (1), two logical values (2), NA (3), and no protected objects. -/
def rgcSt : RSt where
  obj x := if x = 0 then some { kind := .nil, len := 0 } else if x = 1 then some { kind := .real, len := 6, isMat := true, nrow := 2, ncol := 3 }
    else if x = 2 then some { kind := .lgl, len := 2 } else if x = 3 then some { kind := .lgl, len := 1, na := true } else none
  next := 4
  pst := []
  blocks := []
  bnext := 0
  keep x := x < 4

theorem rgcSt_leaf (x : ℕ) (o : RObj) (h : rgcSt.obj x = some o) : o.elts = [] ∧ o.attrs = [] := by
  simp only [rgcSt] at h
  split_ifs at h <;> (obtain rfl := Option.some.inj h; exact ⟨rfl, rfl⟩)

theorem rgcSt_ok : RStOk rgcSt := by
  have hobj := rgcSt_leaf
  intro x hx
  have hx4 : x < 4 := by
    cases hx with
    | keep h => exact h
    | prot h => exact absurd h (by simp [rgcSt])
    | arg h => exact absurd h (by simp)
    | elt _ h1 h2 => rw [(hobj _ _ h1).1] at h2; exact absurd h2 (by simp)
    | attr _ h1 h2 => rw [(hobj _ _ h1).2] at h2; exact absurd h2 (by simp)
  refine ⟨?_, hx4⟩
  interval_cases x <;> rfl

/-- The hypotheses of `C109_gc_safe` are met. -/
example (r : ROut ℕ) (h : RExec true ((RCall.isNondominated 1 2 2).prog 0) rgcSt r) : ∀ e, r ≠ .ub e := by
  intro e he
  rcases C109_gc_safe rgcSt rgcSt_ok 0 (by simp [rgcSt]) (.isNondominated 1 2 2) (by simp [RCall.args, rgcSt]) (by simp [RCall.lengthsOk, RSt.nrow, RSt.len, rgcSt]) r h with
    ⟨x, s', h', _⟩ | ⟨s', h', _⟩ <;> simp [he] at h'

/-- The hypotheses of `C109_returns` are met. -/
example : ∃ x s', RExec false ((RCall.paretoRanking 1).prog 0) rgcSt (.ret x s') :=
  (C109_returns rgcSt rgcSt_ok 0 (by simp [rgcSt]) (.paretoRanking 1) (by simp [RCall.args, rgcSt]) trivial (by simp [RCall.typesOk, RSt.kind, RSt.isMat, rgcSt])).2

/-- The model of the collector is not empty: an object that is not protected may be released when the next one is allocated, and then its use is an error. -/
theorem C109_unprotected_fails :
    RExec true (do let x ← RP.allocVector .real 1; let _ ← RP.allocVector .real 1; RP.write x 0; return x) rgcSt (.ub .released) := by
  refine .alloc (s' := rgcSt) (gcStep_refl _ _) (.alloc (s' := { rgcSt with next := 5 }) ⟨rgcSt.obj, rfl, fun x => ?_⟩ (.writeUb rfl))
  by_cases hx : x = 4
  · subst hx
    refine .inr ⟨rfl, ?_⟩
    intro hr
    have key : ∀ y, RReach { rgcSt with obj := fun x => if x = rgcSt.next then some { kind := .real, len := 1 } else rgcSt.obj x, next := rgcSt.next + 1 } [] y → y < 4 := by
      intro y hy
      have hobj : ∀ x o, (if x = rgcSt.next then some { kind := .real, len := 1 } else rgcSt.obj x : Option RObj) = some o → o.elts = [] ∧ o.attrs = [] := by
        intro x o h
        by_cases hx : x = rgcSt.next
        · rw [if_pos hx] at h
          obtain rfl := Option.some.inj h
          exact ⟨rfl, rfl⟩
        · rw [if_neg hx] at h
          exact rgcSt_leaf x o h
      cases hy with
      | keep h => exact h
      | prot h => exact absurd h (by simp [rgcSt])
      | arg h => exact absurd h (by simp)
      | elt _ h1 h2 => rw [(hobj _ _ h1).1] at h2; exact absurd h2 (by simp)
      | attr _ h1 h2 => rw [(hobj _ _ h1).2] at h2; exact absurd h2 (by simp)
    exact absurd (key 4 hr) (by omega)
  · exact .inl (by simp [rgcSt, hx])

/-- **False without the restriction of `C109_no_leak_on_error`**: `is_nondominated` with `keep_weakly = NA` ends with an error of R and never releases a block. -/
theorem C109_false_leak_on_error : ∃ s', RExec true ((RCall.isNondominated 1 2 3).prog 0) rgcSt (.err s') ∧ s'.blocks ≠ rgcSt.blocks := by
  refine ⟨{ rgcSt with blocks := [0], bnext := 1 }, ?_, by simp [rgcSt]⟩
  refine .inspect (o := { kind := .real, len := 6, isMat := true, nrow := 2, ncol := 3 }) rfl ?_
  refine .inspect (o := { kind := .lgl, len := 2 }) rfl (.malloc (.useB (by simp [rgcSt]) ?_))
  exact .inspect (o := { kind := .lgl, len := 1, na := true }) rfl .jump

/-- The averaged Hausdorff distance with `p = NA` leaks in the same way. -/
theorem C109_false_leak_hausdorff : ∃ s', RExec true ((RCall.avgHausdorff 1 1 2 3).prog 0) rgcSt (.err s') ∧ s'.blocks ≠ rgcSt.blocks := by
  refine ⟨{ rgcSt with blocks := [0], bnext := 1 }, ?_, by simp [rgcSt]⟩
  refine .inspect (o := { kind := .real, len := 6, isMat := true, nrow := 2, ncol := 3 }) rfl ?_
  refine .inspect (o := { kind := .real, len := 6, isMat := true, nrow := 2, ncol := 3 }) rfl ?_
  refine .inspect (o := { kind := .lgl, len := 2 }) rfl (.malloc (.useB (by simp [rgcSt]) ?_))
  exact .inspect (o := { kind := .lgl, len := 1, na := true }) rfl .jump

end Moo
