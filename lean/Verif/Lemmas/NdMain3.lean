import Verif.Lemmas.NdMain2

/-!
# Lemmas for the program `nondominated`: the options
-/

set_option autoImplicit false
set_option linter.unusedSectionVars false

namespace Moo

variable {K : Type*} [Field K] [LinearOrder K] [IsStrictOrderedRing K]

theorem readRange_ok {scan : NumScan K} {str : List Char} {lo hi : K} (h : NumbersArg scan str [lo, hi]) : readRange scan str = some (lo, hi) := by
  unfold readRange
  cases h with
  | cons _ r _ _ h1 h2 =>
    rw [h1]
    dsimp only
    cases h2 with
    | cons _ r' _ _ h3 h4 =>
      rw [h3]
      dsimp only
      cases h4 with
      | nil _ h5 => rw [if_pos (by rw [List.all_eq_true]; exact h5)]

theorem readBitvector_ok (bits : List Bool) : readBitvector (bits.map fun b => if b then '1' else '0') = some bits := by
  induction bits with
  | nil => rfl
  | cons b bits ih =>
    rw [List.map_cons, readBitvector, ih]
    cases b <;> simp

/-- What the options up to now (`pre`) have done. -/
structure NdOptInv (n : ℕ) (o : NdOpts K) (pre : List NdArg) (st : NdSt K) : Prop where
  filter : st.filter = true ↔ NdArg.filter ∈ pre
  check : st.filter = false → (st.check = true ↔ NdArg.noCheck ∉ pre)
  force : st.force = true ↔ NdArg.forceBounds ∈ pre
  union : st.union = true ↔ NdArg.union ∈ pre
  maximise : st.maximise = true ↔ NdArg.maximise ∈ pre
  minmaxNone : st.minmax = none ↔ ∀ str, NdArg.obj str ∉ pre
  minmaxSome : ∀ m, st.minmax = some m → n ≤ m.1 ∧ ∀ k < n, m.2 k = minmaxFromBool o.mx k
  agreeNone : (∀ str, NdArg.agree str ∉ pre) → st.agree = 0
  agreeSome : ∀ str, NdArg.agree str ∈ pre → st.agree = agreeInt o.agree
  rangeNone : (∀ str, NdArg.normalise str ∉ pre) → st.range = none
  rangeSome : ∀ str, NdArg.normalise str ∈ pre → st.range = o.range
  lowerNone : (∀ str, NdArg.lower str ∉ pre) → st.lower = none
  lowerSome : ∀ str, NdArg.lower str ∈ pre → st.lower = o.lower.map (· ++ [0])
  upperNone : (∀ str, NdArg.upper str ∉ pre) → st.upper = none
  upperSome : ∀ str, NdArg.upper str ∈ pre → st.upper = o.upper.map (· ++ [0])
  logNone : (∀ str, NdArg.log str ∉ pre) → st.logarithm = none
  logSome : ∀ str, NdArg.log str ∈ pre → st.logarithm = o.log
  dim : st.dim = 0 ∨ st.dim = n
  given : st.lower ≠ none ∨ st.upper ≠ none → st.dim = n

theorem NdOptInv.noCheck {n : ℕ} {o : NdOpts K} {pre : List NdArg} {st : NdSt K} (h : NdOptInv n o pre st) : NdOptInv n o (pre ++ [.noCheck]) { st with check := false } where
  filter := by simpa using h.filter
  check := by simp
  force := by simpa using h.force
  union := by simpa using h.union
  maximise := by simpa using h.maximise
  minmaxNone := by simpa using h.minmaxNone
  minmaxSome := by simpa using h.minmaxSome
  agreeNone := by simpa using h.agreeNone
  agreeSome := by simpa using h.agreeSome
  rangeNone := by simpa using h.rangeNone
  rangeSome := by simpa using h.rangeSome
  lowerNone := by simpa using h.lowerNone
  lowerSome := by simpa using h.lowerSome
  upperNone := by simpa using h.upperNone
  upperSome := by simpa using h.upperSome
  logNone := by simpa using h.logNone
  logSome := by simpa using h.logSome
  dim := by simpa using h.dim
  given := by simpa using h.given

theorem NdOptInv.addFilter {n : ℕ} {o : NdOpts K} {pre : List NdArg} {st : NdSt K} (h : NdOptInv n o pre st) : NdOptInv n o (pre ++ [.filter]) { st with filter := true, check := true } where
  filter := by simp
  check := by simp
  force := by simpa using h.force
  union := by simpa using h.union
  maximise := by simpa using h.maximise
  minmaxNone := by simpa using h.minmaxNone
  minmaxSome := by simpa using h.minmaxSome
  agreeNone := by simpa using h.agreeNone
  agreeSome := by simpa using h.agreeSome
  rangeNone := by simpa using h.rangeNone
  rangeSome := by simpa using h.rangeSome
  lowerNone := by simpa using h.lowerNone
  lowerSome := by simpa using h.lowerSome
  upperNone := by simpa using h.upperNone
  upperSome := by simpa using h.upperSome
  logNone := by simpa using h.logNone
  logSome := by simpa using h.logSome
  dim := by simpa using h.dim
  given := by simpa using h.given

theorem NdOptInv.addForce {n : ℕ} {o : NdOpts K} {pre : List NdArg} {st : NdSt K} (h : NdOptInv n o pre st) : NdOptInv n o (pre ++ [.forceBounds]) { st with force := true } where
  filter := by simpa using h.filter
  check := by simpa using h.check
  force := by simp
  union := by simpa using h.union
  maximise := by simpa using h.maximise
  minmaxNone := by simpa using h.minmaxNone
  minmaxSome := by simpa using h.minmaxSome
  agreeNone := by simpa using h.agreeNone
  agreeSome := by simpa using h.agreeSome
  rangeNone := by simpa using h.rangeNone
  rangeSome := by simpa using h.rangeSome
  lowerNone := by simpa using h.lowerNone
  lowerSome := by simpa using h.lowerSome
  upperNone := by simpa using h.upperNone
  upperSome := by simpa using h.upperSome
  logNone := by simpa using h.logNone
  logSome := by simpa using h.logSome
  dim := by simpa using h.dim
  given := by simpa using h.given

theorem NdOptInv.addUnion {n : ℕ} {o : NdOpts K} {pre : List NdArg} {st : NdSt K} (h : NdOptInv n o pre st) : NdOptInv n o (pre ++ [.union]) { st with union := true } where
  filter := by simpa using h.filter
  check := by simpa using h.check
  force := by simpa using h.force
  union := by simp
  maximise := by simpa using h.maximise
  minmaxNone := by simpa using h.minmaxNone
  minmaxSome := by simpa using h.minmaxSome
  agreeNone := by simpa using h.agreeNone
  agreeSome := by simpa using h.agreeSome
  rangeNone := by simpa using h.rangeNone
  rangeSome := by simpa using h.rangeSome
  lowerNone := by simpa using h.lowerNone
  lowerSome := by simpa using h.lowerSome
  upperNone := by simpa using h.upperNone
  upperSome := by simpa using h.upperSome
  logNone := by simpa using h.logNone
  logSome := by simpa using h.logSome
  dim := by simpa using h.dim
  given := by simpa using h.given

theorem NdOptInv.addMaximise {n : ℕ} {o : NdOpts K} {pre : List NdArg} {st : NdSt K} (h : NdOptInv n o pre st) : NdOptInv n o (pre ++ [.maximise]) { st with maximise := true } where
  filter := by simpa using h.filter
  check := by simpa using h.check
  force := by simpa using h.force
  union := by simpa using h.union
  maximise := by simp
  minmaxNone := by simpa using h.minmaxNone
  minmaxSome := by simpa using h.minmaxSome
  agreeNone := by simpa using h.agreeNone
  agreeSome := by simpa using h.agreeSome
  rangeNone := by simpa using h.rangeNone
  rangeSome := by simpa using h.rangeSome
  lowerNone := by simpa using h.lowerNone
  lowerSome := by simpa using h.lowerSome
  upperNone := by simpa using h.upperNone
  upperSome := by simpa using h.upperSome
  logNone := by simpa using h.logNone
  logSome := by simpa using h.logSome
  dim := by simpa using h.dim
  given := by simpa using h.given

theorem NdOptInv.addObj {n : ℕ} {o : NdOpts K} {pre : List NdArg} {st : NdSt K} (h : NdOptInv n o pre st) (str : List Char) {m : ℕ} {mm : ℕ → ℤ} (hm : n ≤ m) (hmm : ∀ k < n, mm k = minmaxFromBool o.mx k) : NdOptInv n o (pre ++ [.obj str]) { st with minmax := some (m, mm), dim := n } where
  filter := by simpa using h.filter
  check := by simpa using h.check
  force := by simpa using h.force
  union := by simpa using h.union
  maximise := by simpa using h.maximise
  minmaxNone := by
    constructor
    · intro h0; cases h0
    · intro h0; exact absurd (List.mem_append_right _ (List.mem_singleton.2 rfl)) (h0 str)
  minmaxSome := by rintro m' hm'; cases hm'; exact ⟨hm, hmm⟩
  agreeNone := by simpa using h.agreeNone
  agreeSome := by simpa using h.agreeSome
  rangeNone := by simpa using h.rangeNone
  rangeSome := by simpa using h.rangeSome
  lowerNone := by simpa using h.lowerNone
  lowerSome := by simpa using h.lowerSome
  upperNone := by simpa using h.upperNone
  upperSome := by simpa using h.upperSome
  logNone := by simpa using h.logNone
  logSome := by simpa using h.logSome
  dim := Or.inr rfl
  given := fun _ => rfl

theorem NdOptInv.addAgree {n : ℕ} {o : NdOpts K} {pre : List NdArg} {st : NdSt K} (h : NdOptInv n o pre st) (str : List Char) : NdOptInv n o (pre ++ [.agree str]) { st with agree := agreeInt o.agree } where
  filter := by simpa using h.filter
  check := by simpa using h.check
  force := by simpa using h.force
  union := by simpa using h.union
  maximise := by simpa using h.maximise
  minmaxNone := by simpa using h.minmaxNone
  minmaxSome := by simpa using h.minmaxSome
  agreeNone := fun h0 => absurd (List.mem_append_right _ (List.mem_singleton.2 rfl)) (h0 str)
  agreeSome := fun _ _ => rfl
  rangeNone := by simpa using h.rangeNone
  rangeSome := by simpa using h.rangeSome
  lowerNone := by simpa using h.lowerNone
  lowerSome := by simpa using h.lowerSome
  upperNone := by simpa using h.upperNone
  upperSome := by simpa using h.upperSome
  logNone := by simpa using h.logNone
  logSome := by simpa using h.logSome
  dim := by simpa using h.dim
  given := by simpa using h.given

theorem NdOptInv.addRange {n : ℕ} {o : NdOpts K} {pre : List NdArg} {st : NdSt K} (h : NdOptInv n o pre st) (str : List Char) : NdOptInv n o (pre ++ [.normalise str]) { st with range := o.range } where
  filter := by simpa using h.filter
  check := by simpa using h.check
  force := by simpa using h.force
  union := by simpa using h.union
  maximise := by simpa using h.maximise
  minmaxNone := by simpa using h.minmaxNone
  minmaxSome := by simpa using h.minmaxSome
  agreeNone := by simpa using h.agreeNone
  agreeSome := by simpa using h.agreeSome
  rangeNone := fun h0 => absurd (List.mem_append_right _ (List.mem_singleton.2 rfl)) (h0 str)
  rangeSome := fun _ _ => rfl
  lowerNone := by simpa using h.lowerNone
  lowerSome := by simpa using h.lowerSome
  upperNone := by simpa using h.upperNone
  upperSome := by simpa using h.upperSome
  logNone := by simpa using h.logNone
  logSome := by simpa using h.logSome
  dim := by simpa using h.dim
  given := by simpa using h.given

theorem NdOptInv.addUpper {n : ℕ} {o : NdOpts K} {pre : List NdArg} {st : NdSt K} (h : NdOptInv n o pre st) (str : List Char) : NdOptInv n o (pre ++ [.upper str]) { st with upper := o.upper.map (· ++ [0]), dim := n } where
  filter := by simpa using h.filter
  check := by simpa using h.check
  force := by simpa using h.force
  union := by simpa using h.union
  maximise := by simpa using h.maximise
  minmaxNone := by simpa using h.minmaxNone
  minmaxSome := by simpa using h.minmaxSome
  agreeNone := by simpa using h.agreeNone
  agreeSome := by simpa using h.agreeSome
  rangeNone := by simpa using h.rangeNone
  rangeSome := by simpa using h.rangeSome
  lowerNone := by simpa using h.lowerNone
  lowerSome := by simpa using h.lowerSome
  upperNone := fun h0 => absurd (List.mem_append_right _ (List.mem_singleton.2 rfl)) (h0 str)
  upperSome := fun _ _ => rfl
  logNone := by simpa using h.logNone
  logSome := by simpa using h.logSome
  dim := Or.inr rfl
  given := fun _ => rfl

theorem NdOptInv.addLower {n : ℕ} {o : NdOpts K} {pre : List NdArg} {st : NdSt K} (h : NdOptInv n o pre st) (str : List Char) : NdOptInv n o (pre ++ [.lower str]) { st with lower := o.lower.map (· ++ [0]), dim := n } where
  filter := by simpa using h.filter
  check := by simpa using h.check
  force := by simpa using h.force
  union := by simpa using h.union
  maximise := by simpa using h.maximise
  minmaxNone := by simpa using h.minmaxNone
  minmaxSome := by simpa using h.minmaxSome
  agreeNone := by simpa using h.agreeNone
  agreeSome := by simpa using h.agreeSome
  rangeNone := by simpa using h.rangeNone
  rangeSome := by simpa using h.rangeSome
  lowerNone := fun h0 => absurd (List.mem_append_right _ (List.mem_singleton.2 rfl)) (h0 str)
  lowerSome := fun _ _ => rfl
  upperNone := by simpa using h.upperNone
  upperSome := by simpa using h.upperSome
  logNone := by simpa using h.logNone
  logSome := by simpa using h.logSome
  dim := Or.inr rfl
  given := fun _ => rfl

theorem NdOptInv.addLog {n : ℕ} {o : NdOpts K} {pre : List NdArg} {st : NdSt K} (h : NdOptInv n o pre st) (str : List Char) : NdOptInv n o (pre ++ [.log str]) { st with logarithm := o.log, dim := n } where
  filter := by simpa using h.filter
  check := by simpa using h.check
  force := by simpa using h.force
  union := by simpa using h.union
  maximise := by simpa using h.maximise
  minmaxNone := by simpa using h.minmaxNone
  minmaxSome := by simpa using h.minmaxSome
  agreeNone := by simpa using h.agreeNone
  agreeSome := by simpa using h.agreeSome
  rangeNone := by simpa using h.rangeNone
  rangeSome := by simpa using h.rangeSome
  lowerNone := by simpa using h.lowerNone
  lowerSome := by simpa using h.lowerSome
  upperNone := by simpa using h.upperNone
  upperSome := by simpa using h.upperSome
  logNone := fun h0 => absurd (List.mem_append_right _ (List.mem_singleton.2 rfl)) (h0 str)
  logSome := fun _ _ => rfl
  dim := Or.inr rfl
  given := fun _ => rfl

/-- The options that are left are among those given. -/
theorem ndOptions_inv {env : NdEnv K} (hs : ScanOk env.scan) {n : ℕ} (hn : 0 < n) {o : NdOpts K} {all : List NdArg} (hM : NdMeans env.scan n all o) (args : List NdArg) : ∀ (pre : List NdArg) (st : NdSt K),
    NdOptInv n o pre st → (∀ a ∈ args, a ∈ all) → ∃ st', ndOptions env st args = .ok st' ∧ NdOptInv n o (pre ++ args) st' := by
  induction args with
  | nil => intro pre st h _; exact ⟨st, rfl, by simpa using h⟩
  | cons a args ih =>
    intro pre st h hall
    have key : ∀ st1, NdOptInv n o (pre ++ [a]) st1 → ∃ st', ndOptions env st1 args = .ok st' ∧ NdOptInv n o (pre ++ a :: args) st' := by
      intro st1 h1
      obtain ⟨st', e, h'⟩ := ih (pre ++ [a]) st1 h1 (fun b hb => hall b (by simp [hb]))
      exact ⟨st', e, by simpa using h'⟩
    have ha := hall a (by simp)
    cases a with
    | noCheck => exact key _ h.noCheck
    | filter => exact key _ h.addFilter
    | forceBounds => exact key _ h.addForce
    | union => exact key _ h.addUnion
    | maximise => exact key _ h.addMaximise
    | obj str =>
      have hd := hM.directions str ha
      obtain ⟨mm, e, hmm⟩ := directions_ok (junk := env.junk) hn hd st.dim
      rw [ndOptions, e]
      exact key _ (h.addObj str (le_max_of_le_left hd.1.ge) hmm)
    | agree str =>
      obtain ⟨b, h1, h2⟩ := hM.agree str ha
      have := h.addAgree str
      rw [h1] at this
      rw [ndOptions, h2]
      cases b with
      | true => simp only [if_true]; subst h2; exact key _ this
      | false =>
        simp only [Bool.false_eq_true, if_false, if_true]
        rw [if_neg (by decide)]
        subst h2; exact key _ this
    | normalise str =>
      obtain ⟨lo, hi, h1, h2, h3⟩ := hM.range str ha
      rw [ndOptions, readRange_ok h2]
      dsimp only
      rw [if_neg (not_le.2 h3), ← h1]
      exact key _ (h.addRange str)
    | upper str =>
      obtain ⟨vs, h1, h2, h3⟩ := hM.upper str ha
      rw [ndOptions, readPoint_ok hs h2 (by rintro rfl; simp at h3; omega)]
      dsimp only
      have := h.addUpper str
      rw [h1] at this
      rw [h3]
      exact key _ this
    | lower str =>
      obtain ⟨vs, h1, h2, h3⟩ := hM.lower str ha
      rw [ndOptions, readPoint_ok hs h2 (by rintro rfl; simp at h3; omega)]
      dsimp only
      have := h.addLower str
      rw [h1] at this
      rw [h3]
      exact key _ this
    | log str =>
      obtain ⟨bits, h1, h2, h3⟩ := hM.log str ha
      rw [ndOptions, h2, readBitvector_ok]
      dsimp only
      have := h.addLog str
      rw [h1] at this
      subst h2
      rw [h3]
      exact key _ this

theorem ndOptions_ok {env : NdEnv K} (hs : ScanOk env.scan) {n : ℕ} (hn : 0 < n) {o : NdOpts K} {args : List NdArg} (hM : NdMeans env.scan n args o) :
    ∃ st, ndOptions env ndInit args = .ok st ∧ StOk n st o := by
  obtain ⟨st, e, h⟩ := ndOptions_inv hs hn hM args [] ndInit
    ⟨by simp [ndInit], by simp [ndInit], by simp [ndInit], by simp [ndInit], by simp [ndInit], by simp [ndInit], by simp [ndInit], by simp [ndInit], by simp, by simp [ndInit], by simp, by simp [ndInit],
      by simp, by simp [ndInit], by simp, by simp [ndInit], by simp, by simp [ndInit], by simp [ndInit]⟩ (fun a ha => ha)
  rw [List.nil_append] at h
  have hfilter : st.filter = o.filter := by rw [Bool.eq_iff_iff, h.filter, hM.filter]
  have hlower : st.lower = o.lower.map (· ++ [0]) := by
    by_cases hx : ∀ str, NdArg.lower str ∉ args
    · rw [h.lowerNone hx, hM.no_lower hx]; rfl
    · push Not at hx; obtain ⟨str, hx⟩ := hx; exact h.lowerSome str hx
  have hupper : st.upper = o.upper.map (· ++ [0]) := by
    by_cases hx : ∀ str, NdArg.upper str ∉ args
    · rw [h.upperNone hx, hM.no_upper hx]; rfl
    · push Not at hx; obtain ⟨str, hx⟩ := hx; exact h.upperSome str hx
  have hlog : st.logarithm = o.log := by
    by_cases hx : ∀ str, NdArg.log str ∉ args
    · rw [h.logNone hx, hM.no_log hx]
    · push Not at hx; obtain ⟨str, hx⟩ := hx; exact h.logSome str hx
  have hlowerLen : ∀ l, o.lower = some l → l.length = n := by
    intro l hl
    by_cases hx : ∀ str, NdArg.lower str ∉ args
    · rw [hM.no_lower hx] at hl; cases hl
    · push Not at hx
      obtain ⟨str, hx⟩ := hx
      obtain ⟨vs, h1, -, h3⟩ := hM.lower str hx
      rw [hl] at h1; cases h1; exact h3
  have hupperLen : ∀ l, o.upper = some l → l.length = n := by
    intro l hl
    by_cases hx : ∀ str, NdArg.upper str ∉ args
    · rw [hM.no_upper hx] at hl; cases hl
    · push Not at hx
      obtain ⟨str, hx⟩ := hx
      obtain ⟨vs, h1, -, h3⟩ := hM.upper str hx
      rw [hl] at h1; cases h1; exact h3
  refine ⟨st, e, ⟨?_, hfilter, ?_, ?_, ?_, ?_, hlower, hupper, hlog, ?_, ?_, h.dim, h.given, ?_, hlowerLen, hupperLen⟩⟩
  · rw [Bool.eq_iff_iff, hM.checks, Bool.or_eq_true, ← h.filter]
    by_cases hf : st.filter = true
    · simp [hf]
    · rw [h.check (by simpa using hf)]
      simp [hf]
  · rw [Bool.eq_iff_iff, h.force, hM.force]
  · rw [Bool.eq_iff_iff, h.union, hM.union]
  · by_cases hx : ∀ str, NdArg.agree str ∉ args
    · rw [h.agreeNone hx, hM.no_agree hx]; rfl
    · push Not at hx; obtain ⟨str, hx⟩ := hx; exact h.agreeSome str hx
  · by_cases hx : ∀ str, NdArg.normalise str ∉ args
    · rw [h.rangeNone hx, hM.no_range hx]
    · push Not at hx; obtain ⟨str, hx⟩ := hx; exact h.rangeSome str hx
  · unfold NdSt.short
    rw [hlower, hupper, hlog]
    have h1 : (st.minmax.any fun m => decide (m.1 < n)) = false := by
      cases hm : st.minmax with
      | none => rfl
      | some m => simpa using (h.minmaxSome m hm).1
    have h2 : ((o.lower.map (· ++ [0])).any fun l => decide (l.length < n)) = false := by
      cases hm : o.lower with
      | none => rfl
      | some l => have := hlowerLen l hm; simp; omega
    have h3 : ((o.upper.map (· ++ [0])).any fun l => decide (l.length < n)) = false := by
      cases hm : o.upper with
      | none => rfl
      | some l => have := hupperLen l hm; simp; omega
    have h4 : (o.log.any fun l => decide (l.length < n)) = false := by
      cases hm : o.log with
      | none => rfl
      | some l =>
        have : l.length = n := by
          by_cases hx : ∀ str, NdArg.log str ∉ args
          · rw [hM.no_log hx] at hm; cases hm
          · push Not at hx
            obtain ⟨str, hx⟩ := hx
            obtain ⟨vs, g1, -, g3⟩ := hM.log str hx
            rw [hm] at g1; cases g1; exact g3
        simp [this]
    rw [h1, h2, h3, h4]
    rfl
  · intro k hk
    cases hm : st.minmax with
    | none =>
      dsimp only
      have := hM.no_directions (h.minmaxNone.1 hm) k hk
      rw [← h.maximise] at this
      unfold minmaxFromBool
      simp only [this]
    | some m => exact (h.minmaxSome m hm).2 k hk
  · intro lo hi hr
    by_cases hx : ∀ str, NdArg.normalise str ∉ args
    · rw [hM.no_range hx] at hr; cases hr
    · push Not at hx
      obtain ⟨str, hx⟩ := hx
      obtain ⟨lo', hi', g1, -, g3⟩ := hM.range str hx
      rw [hr] at g1; cases g1; exact g3

end Moo
