import Verif.Spec.Pac
import Verif.Props.Narrow
import Mathlib.NumberTheory.ZetaValues
import Verif.Props.Bandits2
import Verif.Props.Bandits3

/-!
# Property C88: the error probability of the whole run
-/

set_option linter.unusedSectionVars false
set_option linter.unusedSimpArgs false

namespace Verif
namespace Bandit
open MeasureTheory

variable {I S W β α : Type} [Field α] [LinearOrder α] [IsStrictOrderedRing α] [DecidableEq I]
variable {env : BanditEnv W β} {ops : ArmOps S W β α} {cfg : BanditCfg I α} {all : Option (ExpData β)} {fuel : Nat}
  {heap : I → S} {bd : BanditData I α} {L : Fl α}

/-- a run without misses that ends within the limit is right -/
theorem right_of_no_miss {S : Type} {ops : ArmOps S W β α} {heap : I → S} {w : W} {s' : (I → S) × W}
    (hnd : cfg.arms.Nodup) (hne : cfg.arms ≠ []) (htol : cfg.errorTol.lt (.fin 0) = false)
    (hL : cfg.sampleLimit = some L) (hL0 : L.lt (.fin 0) = false) (θ : I → α)
    (run : Py ((I → S) × W) (Option (BanditData I α)))
    (hrun : run ∈ [uniformRun env ops cfg all fuel, lucbRun env ops cfg all fuel, seRun env ops cfg all fuel])
    (hr : run (heap, w) = (.ok (some bd), s')) (hin : EndsWithin L bd) (hm : ∀ a ∈ cfg.arms, ¬ bd.Misses θ a) :
    bd.Right cfg.arms θ := by
  have hlow : ∀ a ∈ cfg.arms, (∀ l ∈ bd.lcb a, l.lt (.fin (θ a)) = true) ∧ ∀ u ∈ bd.ucb a, Fl.Above (θ a) u := by
    intro a ha
    have := hm a ha
    unfold BanditData.Misses at this
    push Not at this
    exact ⟨fun l hl => by simpa using this.1 l hl, fun u hu => by simpa [Fl.Above] using this.2 u hu⟩
  simp only [List.mem_cons, List.not_mem_nil, or_false] at hrun
  have hfin : ∀ {rs : List (RoundRec I S β α)}, Ran ops cfg heap rs bd s'.1 → rs ≠ [] → ∀ a ∈ cfg.arms, ∃ l u,
      bd.finalLcb a = some l ∧ bd.finalUcb a = some u ∧ l.Below (θ a) ∧ Fl.Above (θ a) u := by
    intro rs h1 h2 a ha
    obtain ⟨e1, e2, -⟩ := h1.final h2 ha
    refine ⟨_, _, e1, e2, ?_, ?_⟩
    · exact Fl.le_of_lt' _ _ ((hlow a ha).1 _ (List.mem_of_mem_getLast? e1))
    · exact (hlow a ha).2 _ (List.mem_of_mem_getLast? e2)
  rcases hrun with rfl | rfl | rfl
  · obtain ⟨rs, h1, h2, -⟩ := uniform_within hnd hr hL hin
    obtain ⟨b, t, h3, h4, -, h5, h6⟩ := C36_uniform hnd hr hL hin htol θ (hfin h1 h2)
    exact ⟨b, h4, h3, fun a ha hab => by linarith [h6 a ha hab]⟩
  · obtain ⟨rs, h1, h2, -⟩ := lucb_within hnd hr hL hin
    obtain ⟨b, t, h3, h4, -, h5, h6⟩ := C36_lucb hnd hr hL hin htol θ (hfin h1 h2)
    exact ⟨b, h4, h3, fun a ha hab => by linarith [h6 a ha hab]⟩
  · obtain ⟨b, h1, h2, h3⟩ := C36_successive_elimination hnd hne hr hL hL0 hin θ hlow
    exact ⟨b, h2, h1, h3⟩

/-- the union bound over the arms: `c` bounds the probability that an arm misses, as a function of its level -/
theorem union_arms [MeasurableSpace W] (ι : α →+* ℝ) (μ : Measure W) (arms : List I) (hnd : arms.Nodup) (hne : arms ≠ [])
    (p errorTol : Fl α) (pr : α) (hp : p = .fin pr) (confidence : Option (Fl α)) (hL0 : L.lt (.fin 0) = false) (units : Nat)
    (hcons : construct arms (some p) (some errorTol) confidence (some L) units = .ok cfg)
    (env : BanditEnv W β) (ops : ArmOps S W β α) (all : Option (ExpData β)) (fuel : Nat) (heap : I → S) (θ : I → α)
    (run : Py ((I → S × List (ExpData β × Fl α)) × W) (Option (BanditData I α)))
    (hrun : run ∈ [uniformRun env ops.logged cfg all fuel, lucbRun env ops.logged cfg all fuel, seRun env ops.logged cfg all fuel])
    (c : ℝ)
    (hon : ∀ a ∈ arms, ∀ ℓ : α, (∀ w, ∀ e ∈ ((run (startHeap heap, w)).2.1 a).2, e.2 = .fin ℓ) →
      μ {w | ∃ bd s', run (startHeap heap, w) = (.ok (some bd), s') ∧ bd.Misses θ a} ≤ ENNReal.ofReal (c * ι ℓ)) :
    μ {w | ∃ bd s', run (startHeap heap, w) = (.ok (some bd), s') ∧ EndsWithin L bd ∧ ¬ bd.Right arms θ} ≤ ENNReal.ofReal (c * ι pr) := by
  obtain ⟨p', t, q1, q2, q3, q4, q5, q6, q7⟩ := (C44_constructor arms (some p) (some errorTol) confidence (some L) units cfg).mp hcons
  cases q1; cases q3
  have hlevel : ∀ w : W, ∃ δ : α, δ = pr / arms.length ∧ ∀ a, ∀ e ∈ ((run (startHeap heap, w)).2.1 a).2, e.2 = .fin δ := by
    intro w
    obtain ⟨p', δ, h1, h2, -, -, -, h6⟩ := C43_levels arms _ _ _ _ units cfg hcons hne env ops all fuel heap w
    rw [hp] at h1
    cases h1
    exact ⟨δ, h2, h6 run hrun⟩
  have hmiss : ∀ a ∈ arms, μ {w | ∃ bd s', run (startHeap heap, w) = (.ok (some bd), s') ∧ bd.Misses θ a} ≤
      ENNReal.ofReal (c * ι (pr / arms.length)) := by
    intro a ha
    refine hon a ha (pr / arms.length) ?_
    intro w e he
    obtain ⟨δ, rfl, h⟩ := hlevel w
    exact h a e he
  have hcfg : cfg.arms = arms ∧ cfg.errorTol = errorTol ∧ cfg.sampleLimit = some L := by rw [q7]; exact ⟨rfl, rfl, rfl⟩
  have hsub : {w | ∃ bd s', run (startHeap heap, w) = (.ok (some bd), s') ∧ EndsWithin L bd ∧ ¬ bd.Right arms θ} ⊆
      ⋃ a ∈ arms.toFinset, {w | ∃ bd s', run (startHeap heap, w) = (.ok (some bd), s') ∧ bd.Misses θ a} := by
    rintro w ⟨bd, s', h1, h2, h3⟩
    by_contra hno
    refine h3 ?_
    have := right_of_no_miss (bd := bd) (L := L) (w := w) (heap := startHeap heap) (ops := ops.logged) (hcfg.1 ▸ hnd) (hcfg.1 ▸ hne)
      (hcfg.2.1 ▸ q4) hcfg.2.2 hL0 θ run hrun h1 h2 (by
        intro a ha hm
        refine hno ?_
        rw [Set.mem_iUnion₂]
        exact ⟨a, by rw [hcfg.1] at ha; simpa using ha, bd, s', h1, hm⟩)
    rwa [hcfg.1] at this
  have hcard : (arms.toFinset.card : ℝ) = arms.length := by rw [List.toFinset_card_of_nodup hnd]
  have hlen : (arms.length : ℝ) ≠ 0 := by
    have := List.length_pos_iff.mpr hne
    positivity
  calc μ _ ≤ μ (⋃ a ∈ arms.toFinset, {w | ∃ bd s', run (startHeap heap, w) = (.ok (some bd), s') ∧ bd.Misses θ a}) := measure_mono hsub
    _ ≤ ∑ a ∈ arms.toFinset, μ {w | ∃ bd s', run (startHeap heap, w) = (.ok (some bd), s') ∧ bd.Misses θ a} := measure_biUnion_finset_le _ _
    _ ≤ ∑ _a ∈ arms.toFinset, ENNReal.ofReal (c * ι (pr / arms.length)) := Finset.sum_le_sum fun a ha => hmiss a (by simpa using ha)
    _ = ENNReal.ofReal (c * ι pr) := by
      rw [Finset.sum_const, nsmul_eq_mul, ← ENNReal.ofReal_natCast, ← ENNReal.ofReal_mul (by positivity), hcard, map_div₀, map_natCast]
      congr 1
      field_simp

/-- **C88** If the intervals of every arm are honest, a run of a constructed bandit that ends within the sample limit
returns another result than the best arm with probability at most `error_prob`. -/
theorem C88_error_probability [MeasurableSpace W] (ι : α →+* ℝ) (μ : Measure W) (arms : List I) (hnd : arms.Nodup) (hne : arms ≠ [])
    (p errorTol : Fl α) (pr : α) (hp : p = .fin pr) (confidence : Option (Fl α)) (hL0 : L.lt (.fin 0) = false) (units : Nat)
    (hcons : construct arms (some p) (some errorTol) confidence (some L) units = .ok cfg)
    (env : BanditEnv W β) (ops : ArmOps S W β α) (all : Option (ExpData β)) (fuel : Nat) (heap : I → S) (θ : I → α)
    (run : Py ((I → S × List (ExpData β × Fl α)) × W) (Option (BanditData I α)))
    (hrun : run ∈ [uniformRun env ops.logged cfg all fuel, lucbRun env ops.logged cfg all fuel, seRun env ops.logged cfg all fuel])
    (hon : ∀ a ∈ arms, Honest ι μ run heap θ a) :
    μ {w | ∃ bd s', run (startHeap heap, w) = (.ok (some bd), s') ∧ EndsWithin L bd ∧ ¬ bd.Right arms θ} ≤ ENNReal.ofReal (ι pr) := by
  have := union_arms ι μ arms hnd hne p errorTol pr hp confidence hL0 units hcons env ops all fuel heap θ run hrun 1
    (fun a ha ℓ h => by rw [one_mul]; exact hon a ha ℓ h)
  rwa [one_mul] at this

/-- every recorded entry belongs to a positive number of batches -/
theorem missesAfter_of_misses {S : Type} {ops : ArmOps S W β α} {heap : I → S} {w : W} {s' : (I → S) × W}
    (hnd : cfg.arms.Nodup) (run : Py ((I → S) × W) (Option (BanditData I α)))
    (hrun : run ∈ [uniformRun env ops cfg all fuel, lucbRun env ops cfg all fuel, seRun env ops cfg all fuel])
    (hr : run (heap, w) = (.ok (some bd), s')) {θ : I → α} {a : I} (ha : a ∈ cfg.arms) (hm : bd.Misses θ a) :
    ∃ k, 1 ≤ k ∧ bd.MissesAfter θ cfg.unitsPerRound a k := by
  obtain ⟨rs, hran, hfirst⟩ : ∃ rs, Ran ops cfg heap rs bd s'.1 ∧ ∀ r, rs[0]? = some r → r.arms = cfg.arms := by
    simp only [List.mem_cons, List.not_mem_nil, or_false] at hrun
    rcases hrun with rfl | rfl | rfl
    · obtain ⟨rs, L, h⟩ := uniform_master hnd hr
      exact ⟨rs, h.ran, fun r h0 => h.arms r (List.mem_of_getElem? h0)⟩
    · obtain ⟨r0, rs, L, h⟩ := lucb_master hnd hr
      exact ⟨_, h.ran, fun r h0 => by simp at h0; rw [← h0]; exact h.first⟩
    · obtain ⟨rs, h⟩ := se_master hnd hr
      exact ⟨rs, h.ran, h.chain.first⟩
  have hk : ∀ t, t < rs.length → 1 ≤ pullsIn rs a (t + 1) := by
    intro t ht
    unfold pullsIn
    have h0 : rs[0]? = some rs[0] := List.getElem?_eq_getElem (by omega)
    rw [Nat.one_le_iff_ne_zero, Ne, List.length_eq_zero_iff, List.filter_eq_nil_iff]
    push Not
    refine ⟨rs[0], ?_, by simpa using (hfirst _ h0) ▸ ha⟩
    rw [List.mem_iff_getElem?]
    exact ⟨0, by rw [List.getElem?_take_of_lt (by omega)]; exact h0⟩
  have hl := hran.lengths ha
  rcases hm with ⟨l, h1, h2⟩ | ⟨u, h1, h2⟩
  · obtain ⟨t, ht⟩ := List.mem_iff_getElem?.mp h1
    have hlt := (List.getElem?_eq_some_iff.mp ht).1
    exact ⟨_, hk t (by omega), t, received_eq hran ha t, Or.inl ⟨l, ht, h2⟩⟩
  · obtain ⟨t, ht⟩ := List.mem_iff_getElem?.mp h1
    have hlt := (List.getElem?_eq_some_iff.mp ht).1
    exact ⟨_, hk t (by omega), t, received_eq hran ha t, Or.inr ⟨u, ht, h2⟩⟩

/-- **C88** For arms whose `k`-th interval is honest at the level `δ/k²` (`ci_algorithm=CLT`, C27) the error probability is at
most `error_prob · π²/6`. -/
theorem C88_clt_error_probability [MeasurableSpace W] (ι : α →+* ℝ) (μ : Measure W) (arms : List I) (hnd : arms.Nodup) (hne : arms ≠ [])
    (p errorTol : Fl α) (pr : α) (hp : p = .fin pr) (confidence : Option (Fl α)) (hL0 : L.lt (.fin 0) = false) (units : Nat)
    (hcons : construct arms (some p) (some errorTol) confidence (some L) units = .ok cfg)
    (env : BanditEnv W β) (ops : ArmOps S W β α) (all : Option (ExpData β)) (fuel : Nat) (heap : I → S) (θ : I → α)
    (run : Py ((I → S × List (ExpData β × Fl α)) × W) (Option (BanditData I α)))
    (hrun : run ∈ [uniformRun env ops.logged cfg all fuel, lucbRun env ops.logged cfg all fuel, seRun env ops.logged cfg all fuel])
    (hon : ∀ a ∈ arms, HonestEach ι μ units run heap θ a) :
    μ {w | ∃ bd s', run (startHeap heap, w) = (.ok (some bd), s') ∧ EndsWithin L bd ∧ ¬ bd.Right arms θ} ≤
      ENNReal.ofReal (Real.pi ^ 2 / 6 * ι pr) := by
  have hcfg : cfg.arms = arms ∧ cfg.unitsPerRound = units := by
    obtain ⟨p', t, -, -, -, -, -, -, q7⟩ := (C44_constructor arms (some p) (some errorTol) confidence (some L) units cfg).mp hcons
    rw [q7]; exact ⟨rfl, rfl⟩
  refine union_arms ι μ arms hnd hne p errorTol pr hp confidence hL0 units hcons env ops all fuel heap θ run hrun (Real.pi ^ 2 / 6) ?_
  intro a ha ℓ hℓ
  have hsub : {w | ∃ bd s', run (startHeap heap, w) = (.ok (some bd), s') ∧ bd.Misses θ a} ⊆
      ⋃ k : Nat, {w | ∃ bd s', run (startHeap heap, w) = (.ok (some bd), s') ∧ bd.MissesAfter θ units a (k + 1)} := by
    rintro w ⟨bd, s', h1, h2⟩
    obtain ⟨k, hk, h3⟩ := missesAfter_of_misses (hcfg.1 ▸ hnd) run hrun h1 (hcfg.1 ▸ ha) h2
    rw [Set.mem_iUnion]
    refine ⟨k - 1, bd, s', h1, ?_⟩
    rw [Nat.sub_add_cancel hk, ← hcfg.2]
    exact h3
  have hsum : HasSum (fun k : Nat => 1 / ((k + 1 : Nat) : ℝ) ^ 2) (Real.pi ^ 2 / 6) := by
    have h : HasSum (fun n : Nat => 1 / (n : ℝ) ^ 2) (Real.pi ^ 2 / 6 + ∑ i ∈ Finset.range 1, 1 / (i : ℝ) ^ 2) := by
      simpa using hasSum_zeta_two
    exact (hasSum_nat_add_iff (f := fun n : Nat => 1 / (n : ℝ) ^ 2) 1).mpr h
  calc μ _ ≤ μ (⋃ k : Nat, {w | ∃ bd s', run (startHeap heap, w) = (.ok (some bd), s') ∧ bd.MissesAfter θ units a (k + 1)}) := measure_mono hsub
    _ ≤ ∑' k : Nat, μ {w | ∃ bd s', run (startHeap heap, w) = (.ok (some bd), s') ∧ bd.MissesAfter θ units a (k + 1)} := measure_iUnion_le _
    _ ≤ ∑' k : Nat, ENNReal.ofReal (ι ℓ) * ENNReal.ofReal (1 / ((k + 1 : Nat) : ℝ) ^ 2) := by
      refine ENNReal.tsum_le_tsum fun k => ?_
      rw [← ENNReal.ofReal_mul' (by positivity), mul_one_div]
      exact hon a ha ℓ hℓ (k + 1) (by omega)
    _ = ENNReal.ofReal (ι ℓ) * ENNReal.ofReal (Real.pi ^ 2 / 6) := by
      rw [ENNReal.tsum_mul_left, ← ENNReal.ofReal_tsum_of_nonneg (fun _ => by positivity) hsum.summable, hsum.tsum_eq]
    _ = ENNReal.ofReal (Real.pi ^ 2 / 6 * ι ℓ) := by
      rw [← ENNReal.ofReal_mul' (by positivity), mul_comm]

/-- **C88** Consequently the best arm is returned with probability at least `1 - error_prob - q`, where `q` is the
probability that the run does not end within the limit. -/
theorem C88_success_probability [MeasurableSpace W] (ι : α →+* ℝ) (μ : Measure W) [IsProbabilityMeasure μ] (arms : List I) (hnd : arms.Nodup)
    (hne : arms ≠ []) (p errorTol : Fl α) (pr : α) (hp : p = .fin pr) (confidence : Option (Fl α)) (hL0 : L.lt (.fin 0) = false) (units : Nat)
    (hcons : construct arms (some p) (some errorTol) confidence (some L) units = .ok cfg)
    (env : BanditEnv W β) (ops : ArmOps S W β α) (all : Option (ExpData β)) (fuel : Nat) (heap : I → S) (θ : I → α)
    (run : Py ((I → S × List (ExpData β × Fl α)) × W) (Option (BanditData I α)))
    (hrun : run ∈ [uniformRun env ops.logged cfg all fuel, lucbRun env ops.logged cfg all fuel, seRun env ops.logged cfg all fuel])
    (hon : ∀ a ∈ arms, Honest ι μ run heap θ a) :
    1 ≤ μ {w | ∃ bd s', run (startHeap heap, w) = (.ok (some bd), s') ∧ bd.Right arms θ} + ENNReal.ofReal (ι pr) +
      μ {w | ¬ ∃ bd s', run (startHeap heap, w) = (.ok (some bd), s') ∧ EndsWithin L bd} := by
  have h := C88_error_probability ι μ arms hnd hne p errorTol pr hp confidence hL0 units hcons env ops all fuel heap θ run hrun hon
  refine le_trans ?_ (add_le_add_left (add_le_add_right h _) _)
  rw [← measure_univ (μ := μ)]
  refine le_trans (measure_mono ?_) ((measure_union_le _ _).trans (add_le_add_left (measure_union_le _ _) _))
  intro w _
  by_cases h1 : ∃ bd s', run (startHeap heap, w) = (.ok (some bd), s') ∧ EndsWithin L bd
  · obtain ⟨bd, s', h1, h2⟩ := h1
    by_cases h3 : bd.Right arms θ
    · exact Or.inl (Or.inl ⟨bd, s', h1, h3⟩)
    · exact Or.inl (Or.inr ⟨bd, s', h1, h2, h3⟩)
  · exact Or.inr h1

/-- Scripted arms that report a wrong interval in the worlds from 100 on. -/
def luckOps : ArmOps (List (Fl ℚ × Fl ℚ × Fl ℚ) × Nat) Nat Int ℚ :=
  { scriptOps with
    update := fun d δ s => if s.2 < 100 then scriptOps.update d δ s else (.ok (.fin 20, .fin 30), ([ln 20 30 25], s.1.2 + d.nUnits), s.2 + 1) }

/-- The world is 0 with probability 29/30 and 100 with probability 1/30. -/
noncomputable def luck : Measure Nat := ENNReal.ofReal (29 / 30) • Measure.dirac 0 + ENNReal.ofReal (1 / 30) • Measure.dirac 100

theorem not_exists_run {A σ : Type} {m : Except PyErr (Option A) × σ} {P : A → Prop} {p : A → Bool}
    (h : (match m.1 with | .ok (some bd) => p bd | _ => true) = true) (hp : ∀ bd, p bd = true → ¬ P bd) :
    ¬ ∃ bd s', m = (.ok (some bd), s') ∧ P bd := by
  rintro ⟨bd, s', h1, h2⟩
  rw [h1] at h
  exact hp bd h h2

/-- `Misses` fails, as a test -/
def hitsB (bd : BanditData Nat ℚ) (θ : Nat → ℚ) (a : Nat) : Bool :=
  (bd.lcb a).all (fun l => l.lt (.fin (θ a))) && (bd.ucb a).all fun u => (Fl.fin (θ a)).le u

theorem hits_of {bd : BanditData Nat ℚ} {θ : Nat → ℚ} {a : Nat} (h : hitsB bd θ a = true) : ¬ bd.Misses θ a := by
  simp only [hitsB, Bool.and_eq_true, List.all_eq_true] at h
  rintro (⟨l, hl, h1⟩ | ⟨u, hu, h1⟩)
  · rw [h.1 l hl] at h1; simp at h1
  · rw [h.2 u hu] at h1; simp at h1

/-- non-vacuity: in these worlds the arms are honest: each misses its true value (1, 5, 9) with probability 1/30, which is the
level they are called with; `C88_error_probability` bounds the error probability by 1/10 -/
example : (∀ a ∈ [0, 1, 2], Honest (Rat.castHom ℝ) luck (uniformRun demoEnv luckOps.logged (demoBandit 100) none 10) demoHeap
      (fun a => [(1 : ℚ), 5, 9].getD a 0) a) ∧
    luck {w | ∃ bd s', uniformRun demoEnv luckOps.logged (demoBandit 100) none 10 (startHeap demoHeap, w) = (.ok (some bd), s') ∧
      EndsWithin (.fin 100) bd ∧ ¬ bd.Right [0, 1, 2] (fun a => [(1 : ℚ), 5, 9].getD a 0)} ≤ ENNReal.ofReal (Rat.castHom ℝ (1 / 10)) := by
  have hon : ∀ a ∈ [0, 1, 2], Honest (Rat.castHom ℝ) luck (uniformRun demoEnv luckOps.logged (demoBandit 100) none 10) demoHeap
      (fun a => [(1 : ℚ), 5, 9].getD a 0) a := by
    intro a ha ℓ hℓ
    have h1 : ∃ e ∈ ((uniformRun demoEnv luckOps.logged (demoBandit 100) none 10 (startHeap demoHeap, 0)).2.1 a).2, e.2 = .fin (1 / 30) := by
      have : ((((uniformRun demoEnv luckOps.logged (demoBandit 100) none 10 (startHeap demoHeap, 0)).2.1 a).2.map (·.2)).contains (.fin (1 / 30))) = true := by
        simp only [List.mem_cons, List.not_mem_nil, or_false] at ha
        rcases ha with rfl | rfl | rfl <;> decide +kernel
      rw [List.contains_iff_mem, List.mem_map] at this
      exact this
    obtain ⟨e, he, he'⟩ := h1
    have h2 : ℓ = 1 / 30 := by
      have := hℓ 0 e he
      rw [he'] at this
      simpa using this.symm
    subst h2
    have h3 : ¬ ∃ bd s', uniformRun demoEnv luckOps.logged (demoBandit 100) none 10 (startHeap demoHeap, 0) = (.ok (some bd), s') ∧
        bd.Misses (fun a => [(1 : ℚ), 5, 9].getD a 0) a := by
      refine not_exists_run (p := fun bd => hitsB bd (fun a => [(1 : ℚ), 5, 9].getD a 0) a) ?_ fun bd => hits_of
      simp only [List.mem_cons, List.not_mem_nil, or_false] at ha
      rcases ha with rfl | rfl | rfl <;> decide +kernel
    simp only [luck, Measure.coe_add, Measure.coe_smul, Pi.add_apply, Pi.smul_apply, smul_eq_mul]
    rw [Measure.dirac_apply' _ (MeasurableSpace.measurableSet_top), Set.indicator_of_notMem (by exact h3), mul_zero, zero_add]
    refine (mul_le_of_le_one_right zero_le prob_le_one).trans ?_
    simp
  refine ⟨hon, ?_⟩
  exact C88_error_probability (cfg := demoBandit 100) (L := .fin 100) (Rat.castHom ℝ) luck [0, 1, 2] (by decide) (by simp) (.fin (1 / 10)) (.fin 0) (1 / 10) rfl
    (some (.fin (9 / 10))) (by decide +kernel) 2 (by norm_num [construct, Fl.lt, Fl.isInf, demoBandit]) demoEnv luckOps none 10 demoHeap _ _ (by simp) hon

/-- Scripted arms that report a wrong interval once, in the worlds 100 to 103. -/
def onceOps : ArmOps (List (Fl ℚ × Fl ℚ × Fl ℚ) × Nat) Nat Int ℚ :=
  { scriptOps with
    update := fun d δ s => if s.2 < 100 ∨ 104 ≤ s.2 then scriptOps.update d δ s
      else (.ok (.fin 20, .fin 30), (ln 20 30 25 :: s.1.1.tail, s.1.2 + d.nUnits), s.2 + 1) }

/-- `MissesAfter` holds for one batch at most, as a test -/
def lateB (bd : BanditData Nat ℚ) (θ : Nat → ℚ) (a : Nat) : Bool :=
  (List.range (bd.lcb a).length).all (fun t => decide (((bd.samples a).take (t + 1)).sum ≤ 2) || ((bd.lcb a)[t]?).all fun l => l.lt (.fin (θ a))) &&
  (List.range (bd.ucb a).length).all (fun t => decide (((bd.samples a).take (t + 1)).sum ≤ 2) || ((bd.ucb a)[t]?).all fun u => (Fl.fin (θ a)).le u)

theorem late_of {bd : BanditData Nat ℚ} {θ : Nat → ℚ} {a k : Nat} (hk : 2 ≤ k) (h : lateB bd θ a = true) : ¬ bd.MissesAfter θ 2 a k := by
  simp only [lateB, Bool.and_eq_true, List.all_eq_true, List.mem_range, Bool.or_eq_true, decide_eq_true_eq] at h
  rintro ⟨t, h0, ⟨l, hl, h1⟩ | ⟨u, hu, h1⟩⟩
  · rcases h.1 t (List.getElem?_eq_some_iff.mp hl).1 with h2 | h2
    · omega
    · rw [hl] at h2; simp [h1] at h2
  · rcases h.2 t (List.getElem?_eq_some_iff.mp hu).1 with h2 | h2
    · omega
    · rw [hu] at h2; simp [h1] at h2

/-- non-vacuity: the first interval of each arm misses with probability 1/30, the later ones never -/
example : ∀ a ∈ [0, 1, 2], HonestEach (Rat.castHom ℝ) luck 2 (uniformRun demoEnv onceOps.logged (demoBandit 100) none 10) demoHeap
    (fun a => [(1 : ℚ), 5, 9].getD a 0) a := by
  intro a ha ℓ hℓ k hk
  have h1 : ∃ e ∈ ((uniformRun demoEnv onceOps.logged (demoBandit 100) none 10 (startHeap demoHeap, 0)).2.1 a).2, e.2 = .fin (1 / 30) := by
    have : ((((uniformRun demoEnv onceOps.logged (demoBandit 100) none 10 (startHeap demoHeap, 0)).2.1 a).2.map (·.2)).contains (.fin (1 / 30))) = true := by
      simp only [List.mem_cons, List.not_mem_nil, or_false] at ha
      rcases ha with rfl | rfl | rfl <;> decide +kernel
    rw [List.contains_iff_mem, List.mem_map] at this
    exact this
  obtain ⟨e, he, he'⟩ := h1
  have h2 : ℓ = 1 / 30 := by
    have := hℓ 0 e he
    rw [he'] at this
    simpa using this.symm
  subst h2
  have h3 : ¬ ∃ bd s', uniformRun demoEnv onceOps.logged (demoBandit 100) none 10 (startHeap demoHeap, 0) = (.ok (some bd), s') ∧
      bd.MissesAfter (fun a => [(1 : ℚ), 5, 9].getD a 0) 2 a k := by
    refine not_exists_run (p := fun bd => hitsB bd (fun a => [(1 : ℚ), 5, 9].getD a 0) a) ?_ fun bd hb hm => hits_of hb ?_
    · simp only [List.mem_cons, List.not_mem_nil, or_false] at ha
      rcases ha with rfl | rfl | rfl <;> decide +kernel
    · obtain ⟨t, -, ⟨l, hl, h⟩ | ⟨u, hu, h⟩⟩ := hm
      · exact Or.inl ⟨l, List.mem_of_getElem? hl, h⟩
      · exact Or.inr ⟨u, List.mem_of_getElem? hu, h⟩
  simp only [luck, Measure.coe_add, Measure.coe_smul, Pi.add_apply, Pi.smul_apply, smul_eq_mul]
  rw [Measure.dirac_apply' _ (MeasurableSpace.measurableSet_top), Set.indicator_of_notMem (by exact h3), mul_zero, zero_add]
  rcases Nat.lt_or_ge 1 k with hk2 | hk2
  · rw [Measure.dirac_apply' _ (MeasurableSpace.measurableSet_top), Set.indicator_of_notMem, mul_zero]
    · exact zero_le
    · refine not_exists_run (p := fun bd => lateB bd (fun a => [(1 : ℚ), 5, 9].getD a 0) a) ?_ fun bd => late_of hk2
      simp only [List.mem_cons, List.not_mem_nil, or_false] at ha
      rcases ha with rfl | rfl | rfl <;> decide +kernel
  · have : k = 1 := by omega
    subst this
    refine (mul_le_of_le_one_right zero_le prob_le_one).trans ?_
    simp

end Bandit
end Verif
