import Verif.Spec.PaperSafe
import Verif.Lemmas.PaperSafe
import Verif.Props.Safe
import Verif.Props.SafeArm
import Verif.Props.Rerun

/-!
# C80: the experiments of the paper do not raise
-/

set_option linter.unusedSectionVars false
set_option linter.unusedSimpArgs false

namespace Verif
namespace PaperBandits
open Section5 Arm Paper Bandit
variable {R K F W M P : Type}

/-! ## Construction -/

theorem subGscale_good {k : Nat} (hk : 1 ≤ k) {smp : Sample ℝ} (h : GoodSample 1000 k smp) : ∃ g, 0 ≤ g ∧ subGscale (toData smp) = .fin g := by
  obtain ⟨us, e, hn, hu⟩ := toData_good h
  rw [e, subGscale_eq hk (by norm_num : 1 ≤ 1000) hn fun u hu' => (hu u hu').1]
  exact ⟨_, by have := pvar_nonneg (us.map Obs.xv); have := pvar_nonneg (us.map Obs.zv).flatten; have := pvar_nonneg (us.map Obs.yv); positivity, rfl⟩

theorem totalDim_pos {zDim vDim : List Nat} {zCost vCost z0Cost : ℝ} {k : Nat} {l : ℝ} {units : Nat} (h : GoodArgs zDim vDim zCost vCost z0Cost k l units) :
    1 ≤ totalDim zDim vDim k := by
  have h0 : 1 ≤ zDim.getD 0 0 := by
    have := h.zLen
    rw [List.getD_eq_getElem _ _ (by omega)]
    exact h.zPos _ (List.getElem_mem _)
  unfold totalDim
  omega

/-- what is known about an example that has been built -/
theorem built_ok {sk : Sklearn M P} {alg : CIAlgorithm} {zDim vDim : List Nat} {zCost vCost z0Cost : ℝ} {k : Nat} {l : ℝ} {units : Nat}
    (h : GoodArgs zDim vDim zCost vCost z0Cost k l units) (latex : Bool) {cpds : Dict String (CPD ℝ W)} {scm : SCM String ℝ W} (hscm : Paper.scm k cpds = .ok scm)
    (hsrc : GoodSource (totalDim zDim vDim k) scm) (w : W) :
    ∃ ex w', exampleFromCpd sk zDim vDim zCost vCost z0Cost k cpds (.fin l) units latex alg w = (.ok ex, w') ∧ Prepared k alg ex := by
  obtain ⟨ex, smp, w', specs, e1, -, e3, e4, e5, -⟩ := exampleFromCpd_ok sk alg h latex hscm hsrc w
  obtain ⟨g, hg, eg⟩ := subGscale_good (totalDim_pos h) e3
  refine ⟨ex, w', e1, by rw [e4.arms_eq, List.length_map, e5], g, hg, ?_⟩
  rw [e4.arms_eq]
  intro o ho
  obtain ⟨a, -, rfl⟩ := List.mem_map.1 ho
  exact ⟨rfl, eg, newEta sk a, rfl⟩

/-- **C80** Building the example of Section 5.1 from the arguments of the paper does not raise: it returns `1 + 2^M` arms which have not been
updated yet, share a sub-Gaussian scale that is finite and not negative, and compute finite-sample intervals. -/
theorem C80_construction_51 {r : Noise W ℝ} (hr : GoodNoise r) (g : Gens R W) (sk : Sklearn M P) {zDim vDim : List Nat} {zCost vCost z0Cost : ℝ} {k : Nat} {l : ℝ}
    {units : Nat} (h : GoodArgs zDim vDim zCost vCost z0Cost k l units) (latex : Bool) (fuel : Nat) (s : R × W) :
    example51 r g sk zDim vDim zCost vCost z0Cost k (.fin l) units latex fuel s = none ∨
    ∃ ex w, example51 r g sk zDim vDim zCost vCost z0Cost k (.fin l) units latex fuel s = some (.ok ex, w) ∧ Prepared k .finiteSample ex := by
  have hz := h.zLen
  have hv := h.vLen
  unfold example51
  rcases setup_good g (fun _ => True) (strength51 g) (fun s => ⟨_, _, rfl, trivial⟩) zDim vDim k h.paths (by omega) (by omega) fuel s with e | ⟨S, s', e, -⟩
  · left; rw [e]
  · right
    obtain ⟨scm, e1, e2⟩ := goodSource51 hr g h.paths (by omega) (by omega) e
    obtain ⟨ex, w', e3, e4⟩ := built_ok (sk := sk) (alg := .finiteSample) h latex e1 e2 s'.2
    exact ⟨ex, w', by rw [e]; simp only [e3], e4⟩

/-- **C80** The same for the example of Section 5.2, whose arms compute asymptotic intervals. -/
theorem C80_construction_52 {r : Noise W ℝ} (hr : GoodNoise r) {lib : Nonlinear.GPLib K F ℝ} {pred : F → List ℝ → ℝ} (hl : RowWise lib pred) (kernel : K)
    (g : Gens R W) (sk : Sklearn M P) {zDim vDim : List Nat} {zCost vCost z0Cost : ℝ} {k : Nat} {l : ℝ}
    {units : Nat} (h : GoodArgs zDim vDim zCost vCost z0Cost k l units) (latex : Bool) (fuel : Nat) (s : R × W) :
    example52 r lib kernel g sk zDim vDim zCost vCost z0Cost k (.fin l) units latex fuel s = none ∨
    ∃ ex w, example52 r lib kernel g sk zDim vDim zCost vCost z0Cost k (.fin l) units latex fuel s = some (.ok ex, w) ∧ Prepared k .clt ex := by
  have hz := h.zLen
  have hv := h.vLen
  unfold example52
  rcases setup52_good lib g kernel zDim vDim k h.paths (by omega) (by omega) fuel s with e | ⟨S, fns, fx, fz, fy, s', e, -, -⟩
  · left; rw [e]
  · right
    obtain ⟨scm, e1, e2⟩ := goodSource52 hr hl kernel g h.paths hz hv ⟨h.zPos, h.vPos⟩ e
    obtain ⟨ex, w', e3, e4⟩ := built_ok (sk := sk) (alg := .clt) h latex e1 e2 s'.2
    exact ⟨ex, w', by rw [e]; simp only [e3], e4⟩

/-! ## Runs -/

theorem runnable {sk : Sklearn M P} (hsk : GoodSklearn sk) {alg : CIAlgorithm} {zDim vDim : List Nat} {zCost vCost z0Cost : ℝ} {k : Nat} {l : ℝ} {units : Nat}
    (h : GoodArgs zDim vDim zCost vCost z0Cost k l units) {latex : Bool} {cpds : Dict String (CPD ℝ W)} {scm : SCM String ℝ W} (hscm : Paper.scm k cpds = .ok scm)
    (hsrc : GoodSource (totalDim zDim vDim k) scm) {w w' : W} {ex : Example W M P}
    (hex : exampleFromCpd sk zDim vDim zCost vCost z0Cost k cpds (.fin l) units latex alg w = (.ok ex, w'))
    (hsafe : ∀ o ∈ ex.arms, SafeConfig o.cfg) :
    ∃ subG specs, Runnable sk alg subG specs (totalDim zDim vDim k) l units ex := by
  obtain ⟨ex', smp, w2, specs, e1, -, -, e4, e5, e6⟩ := exampleFromCpd_ok sk alg h latex hscm hsrc w
  obtain rfl : ex' = ex := Except.ok.inj (congrArg Prod.fst (e1.symm.trans hex))
  refine ⟨subGscale (toData smp), specs, hsk, e4.arms_eq, ?_, e6, ?_, by rw [e4.scm_eq]; exact hsrc, h.limit, h.units, e4.lucb_eq, e4.se_eq, e4.uniform_eq⟩
  · have := Nat.one_le_two_pow (n := k); omega
  · intro a ha
    exact hsafe _ (by rw [e4.arms_eq]; exact List.mem_map.2 ⟨a, ha, rfl⟩)

theorem Runnable.runs {sk : Sklearn M P} {alg : CIAlgorithm} {subG : Fl ℝ} {specs : List (ArmSpec ℝ)} {k : Nat} {l : ℝ} {units : Nat} {ex : Example W M P}
    (h : Runnable sk alg subG specs k l units ex) (rng : Rng W ℝ) (o : Obj M P) (calls : List (BanditCall Nat W (Cell ℝ) ℝ))
    (hc : ∀ c ∈ calls, ExperimentCall ex c) (choice choice2) (w : W) :
    Returns (uniformRun (envOf ex.scm choice choice2) (objOps (etaOps sk) realLib rng) ex.uniform none (⌊l⌋₊ + 2)
      (BanditCall.exec (objOps (etaOps sk) realLib rng) calls (heapOf o ex.arms, w))) ∧
    Returns (seRun (envOf ex.scm choice choice2) (objOps (etaOps sk) realLib rng) ex.se none (⌊l⌋₊ + 2)
      (BanditCall.exec (objOps (etaOps sk) realLib rng) calls (heapOf o ex.arms, w))) ∧
    ReturnsUnlessTied (objOps (etaOps sk) realLib rng) ex.lucb.arms
      (lucbRun (envOf ex.scm choice choice2) (objOps (etaOps sk) realLib rng) ex.lucb none (⌊l⌋₊ + 2)
        (BanditCall.exec (objOps (etaOps sk) realLib rng) calls (heapOf o ex.arms, w))) := by
  have hs := h.exec rng calls hc (heapOf o ex.arms, w) fun a ha => by
    rw [h.arms_eq]; exact armIs_new h.good o a (by simpa using ha)
  set s := BanditCall.exec (objOps (etaOps sk) realLib rng) calls (heapOf o ex.arms, w)
  have hun := h.un
  have h2 := h.two
  refine ⟨?_, ?_, ?_⟩
  · rw [h.uniform_eq]
    exact Bandit.C78_uniform (h.reliable rng choice choice2 _) (by simpa using h2) rfl (by dsimp only; omega) s.1 (fun a ha => Or.inl (hs a ha)) s.2
  · rw [h.se_eq]
    exact Bandit.C78_elimination (h.reliable rng choice choice2 _) (by dsimp only; rw [Ne, List.range_eq_nil]; omega) rfl h.lim (by dsimp only; omega) s.1
      (fun a ha => Or.inl (hs a ha)) s.2
  · rw [h.lucb_eq]
    exact Bandit.C78_lucb_partial (h.reliable rng choice choice2 _) (by simpa using h2) rfl (by dsimp only; omega) s.1 (fun a ha => Or.inl (hs a ha)) s.2

section Runs
variable {r : Noise W ℝ} {g : Gens R W} {sk : Sklearn M P} {zDim vDim : List Nat} {zCost vCost z0Cost : ℝ} {k : Nat} {l : ℝ} {units : Nat} {latex : Bool}
  {fuel : Nat} {s0 : R × W} {ex : Example W M P} {w0 : W}

theorem runnable51 (hr : GoodNoise r) (hsk : GoodSklearn sk) (h : GoodArgs zDim vDim zCost vCost z0Cost k l units)
    (hex : example51 r g sk zDim vDim zCost vCost z0Cost k (.fin l) units latex fuel s0 = some (.ok ex, w0)) (hg : WideScale ex) :
    ∃ subG specs, Runnable sk .finiteSample subG specs (totalDim zDim vDim k) l units ex := by
  have hz := h.zLen
  have hv := h.vLen
  unfold example51 at hex
  rcases setup_good g (fun _ => True) (strength51 g) (fun s => ⟨_, _, rfl, trivial⟩) zDim vDim k h.paths (by omega) (by omega) fuel s0 with e | ⟨S, s', e, -⟩
  · simp [e] at hex
  · obtain ⟨scm, e1, e2⟩ := goodSource51 hr g h.paths (by omega) (by omega) e
    simp only [e, Option.some.injEq] at hex
    refine runnable hsk h e1 e2 hex fun o ho => ?_
    obtain ⟨ex', smp, w2, specs, e3, -, -, e4, -⟩ := exampleFromCpd_ok sk .finiteSample h latex e1 e2 s'.2
    obtain rfl : ex' = ex := Except.ok.inj (congrArg Prod.fst (e3.symm.trans hex))
    obtain ⟨g', eg, g1, g2⟩ := hg o ho
    rw [e4.arms_eq] at ho
    obtain ⟨a, -, rfl⟩ := List.mem_map.1 ho
    exact .finite g' 1 2 1000 1 rfl eg rfl rfl rfl rfl g1 g2 (by norm_num) (by norm_num) (by norm_num) (by norm_num)

theorem runnable52 (hr : GoodNoise r) {lib : Nonlinear.GPLib K F ℝ} {pred : F → List ℝ → ℝ} (hl : RowWise lib pred) {kernel : K} (hsk : GoodSklearn sk)
    (h : GoodArgs zDim vDim zCost vCost z0Cost k l units)
    (hex : example52 r lib kernel g sk zDim vDim zCost vCost z0Cost k (.fin l) units latex fuel s0 = some (.ok ex, w0)) :
    ∃ subG specs, Runnable sk .clt subG specs (totalDim zDim vDim k) l units ex := by
  have hz := h.zLen
  have hv := h.vLen
  unfold example52 at hex
  rcases setup52_good lib g kernel zDim vDim k h.paths (by omega) (by omega) fuel s0 with e | ⟨S, fns, fx, fz, fy, s', e, -, -⟩
  · simp [e] at hex
  · obtain ⟨scm, e1, e2⟩ := goodSource52 hr hl kernel g h.paths hz hv ⟨h.zPos, h.vPos⟩ e
    simp only [e, Option.some.injEq] at hex
    refine runnable hsk h e1 e2 hex fun o ho => ?_
    obtain ⟨ex', smp, w2, specs, e3, -, -, e4, -⟩ := exampleFromCpd_ok sk .clt h latex e1 e2 s'.2
    obtain rfl : ex' = ex := Except.ok.inj (congrArg Prod.fst (e3.symm.trans hex))
    rw [e4.arms_eq] at ho
    obtain ⟨a, -, rfl⟩ := List.mem_map.1 ho
    exact .clt rfl

variable (rng : Rng W ℝ) (o : Obj M P) {calls : List (BanditCall Nat W (Cell ℝ) ℝ)} (choice : (n : Nat) → 0 < n → W → Fin n × W)
  (choice2 : (n : Nat) → 2 ≤ n → W → { p : Fin n × Fin n // p.1 ≠ p.2 } × W) (w : W)

/-- **C80** Uniform and successive-elimination runs of the example of Section 5.1 return a result after any earlier runs and resets of its three
bandits, if the sub-Gaussian scale found at construction is large enough. -/
theorem C80_runs_51 (hr : GoodNoise r) (hsk : GoodSklearn sk) (h : GoodArgs zDim vDim zCost vCost z0Cost k l units)
    (hex : example51 r g sk zDim vDim zCost vCost z0Cost k (.fin l) units latex fuel s0 = some (.ok ex, w0)) (hg : WideScale ex)
    (hc : ∀ c ∈ calls, ExperimentCall ex c) :
    Returns (uniformRun (envOf ex.scm choice choice2) (objOps (etaOps sk) realLib rng) ex.uniform none (⌊l⌋₊ + 2)
      (BanditCall.exec (objOps (etaOps sk) realLib rng) calls (heapOf o ex.arms, w))) ∧
    Returns (seRun (envOf ex.scm choice choice2) (objOps (etaOps sk) realLib rng) ex.se none (⌊l⌋₊ + 2)
      (BanditCall.exec (objOps (etaOps sk) realLib rng) calls (heapOf o ex.arms, w))) := by
  obtain ⟨subG, specs, hR⟩ := runnable51 hr hsk h hex hg
  have := hR.runs rng o calls hc choice choice2 w
  exact ⟨this.1, this.2.1⟩

/-- **C80** The same for Section 5.2, without a condition on the scale. -/
theorem C80_runs_52 (hr : GoodNoise r) {lib : Nonlinear.GPLib K F ℝ} {pred : F → List ℝ → ℝ} (hl : RowWise lib pred) {kernel : K} (hsk : GoodSklearn sk)
    (h : GoodArgs zDim vDim zCost vCost z0Cost k l units)
    (hex : example52 r lib kernel g sk zDim vDim zCost vCost z0Cost k (.fin l) units latex fuel s0 = some (.ok ex, w0))
    (hc : ∀ c ∈ calls, ExperimentCall ex c) :
    Returns (uniformRun (envOf ex.scm choice choice2) (objOps (etaOps sk) realLib rng) ex.uniform none (⌊l⌋₊ + 2)
      (BanditCall.exec (objOps (etaOps sk) realLib rng) calls (heapOf o ex.arms, w))) ∧
    Returns (seRun (envOf ex.scm choice choice2) (objOps (etaOps sk) realLib rng) ex.se none (⌊l⌋₊ + 2)
      (BanditCall.exec (objOps (etaOps sk) realLib rng) calls (heapOf o ex.arms, w))) := by
  obtain ⟨subG, specs, hR⟩ := runnable52 hr hl hsk h hex
  have := hR.runs rng o calls hc choice choice2 w
  exact ⟨this.1, this.2.1⟩

/-- **C80 (partial)** LUCB runs of the example of Section 5.1 return a result, unless all arms have the same cost-adjusted estimate.  Missing:
that they return a result in this case too (`C80_lucb_51_violated`). -/
theorem C80_lucb_51_partial (hr : GoodNoise r) (hsk : GoodSklearn sk) (h : GoodArgs zDim vDim zCost vCost z0Cost k l units)
    (hex : example51 r g sk zDim vDim zCost vCost z0Cost k (.fin l) units latex fuel s0 = some (.ok ex, w0)) (hg : WideScale ex)
    (hc : ∀ c ∈ calls, ExperimentCall ex c) :
    ReturnsUnlessTied (objOps (etaOps sk) realLib rng) ex.lucb.arms
      (lucbRun (envOf ex.scm choice choice2) (objOps (etaOps sk) realLib rng) ex.lucb none (⌊l⌋₊ + 2)
        (BanditCall.exec (objOps (etaOps sk) realLib rng) calls (heapOf o ex.arms, w))) := by
  obtain ⟨subG, specs, hR⟩ := runnable51 hr hsk h hex hg
  exact (hR.runs rng o calls hc choice choice2 w).2.2

/-- **C80 (partial)** The same for Section 5.2. -/
theorem C80_lucb_52_partial (hr : GoodNoise r) {lib : Nonlinear.GPLib K F ℝ} {pred : F → List ℝ → ℝ} (hl : RowWise lib pred) {kernel : K} (hsk : GoodSklearn sk)
    (h : GoodArgs zDim vDim zCost vCost z0Cost k l units)
    (hex : example52 r lib kernel g sk zDim vDim zCost vCost z0Cost k (.fin l) units latex fuel s0 = some (.ok ex, w0))
    (hc : ∀ c ∈ calls, ExperimentCall ex c) :
    ReturnsUnlessTied (objOps (etaOps sk) realLib rng) ex.lucb.arms
      (lucbRun (envOf ex.scm choice choice2) (objOps (etaOps sk) realLib rng) ex.lucb none (⌊l⌋₊ + 2)
        (BanditCall.exec (objOps (etaOps sk) realLib rng) calls (heapOf o ex.arms, w))) := by
  obtain ⟨subG, specs, hR⟩ := runnable52 hr hl hsk h hex
  exact (hR.runs rng o calls hc choice choice2 w).2.2

theorem lucb_ties {scm : SCM String ℝ W} {alg : CIAlgorithm} {subG : Fl ℝ} {specs : List (ArmSpec ℝ)} (h : GoodArgs zDim vDim zCost vCost z0Cost k l units)
    (hb : Built sk alg zDim vDim zCost vCost z0Cost k l units latex scm subG specs ex) (hsrc : GoodSource (totalDim zDim vDim k) scm)
    (hlen : specs.length = 1 + 2 ^ k) (hgood : ∀ a ∈ specs, GoodSpec (totalDim zDim vDim k) a) (h18 : units ≤ 18) (hl : ((1 + 2 ^ k) * units : ℝ) ≤ l) :
    ∃ s, lucbRun (envOf ex.scm choice choice2) (objOps (etaOps sk) realLib rng) ex.lucb none (⌊l⌋₊ + 2) (heapOf o ex.arms, w) = (.error .valueError, s) := by
  have hu := h.units
  rw [hb.lucb_eq, hb.scm_eq, hb.arms_eq]
  have hft : FirstTie (envOf scm choice choice2) (objOps (etaOps sk) realLib rng)
      (⟨List.range specs.length, .fin (1 / 20), .fin 0, none, some (.fin l), units⟩ : BanditCfg Nat ℝ)
      (fun i o => ∃ a, specs[i]? = some a ∧ o = newArm sk alg subG a) (fun d => GoodData (totalDim zDim vDim k) (.int 0) (.int 1) 2 d ∧ d.nUnits ≤ 18) .pinf := by
    refine ⟨fun w => ?_, ?_⟩
    · obtain ⟨smp, w', e, hg⟩ := hsrc units (by omega) w
      exact ⟨toData smp, w', by simp [envOf, generate, e], (toData_good hg).mono hu, by rw [toData_nUnits hg]; exact h18⟩
    · rintro i hi d _ w ⟨hd, hd18⟩ ⟨a, ha, rfl⟩
      have hlev : ValidDelta (Bandit.level (⟨List.range specs.length, .fin (1 / 20), .fin 0, none, some (.fin l), units⟩ : BanditCfg Nat ℝ)) := by
        have hn : (1 : ℝ) ≤ specs.length := by
          rw [hlen]; push_cast
          have : (0 : ℝ) < 2 ^ k := by positivity
          linarith
        refine ⟨1 / 20 / specs.length, ?_, by positivity, ?_⟩
        · have : (specs.length : ℝ) ≠ 0 := by linarith
          simp [Bandit.level, Fl.div, this]
        · rw [div_lt_one (by linarith)]; linarith
      obtain ⟨s', w', e1, e2, e3⟩ := first_few sk alg subG rng (hgood a (List.mem_of_getElem? ha)) hd hd18 hlev w
      refine ⟨(.fin 0, .pinf), { newArm sk alg subG a with st := s' }, w', _, _, _, by simp only [objOps, e1], e2, e3, ?_⟩
      have hcost := (hgood a (List.mem_of_getElem? ha)).cost
      simp [objOps, newArm, Fl.mul, Fl.infTimes, hcost]
  refine C78_lucb_violated hft (by simp) ?_ List.nodup_range rfl ?_ _ _ ?_ w
  · simp [hlen]
  · dsimp only
    rw [List.length_range, hlen]
    push_cast
    simpa [Fl.lt] using hl
  · intro i hi
    rw [List.mem_range] at hi
    exact ⟨specs[i], by simp [hi], by simp [heapOf, hi]⟩

/-- **C80 (violated)** With at most 18 units per round every LUCB run of a new example of Section 5.1 raises a `ValueError`: after the first round no
arm has enough data, all estimates are infinite and the arms cannot be told apart. -/
theorem C80_lucb_51_violated (hr : GoodNoise r) (h : GoodArgs zDim vDim zCost vCost z0Cost k l units)
    (hex : example51 r g sk zDim vDim zCost vCost z0Cost k (.fin l) units latex fuel s0 = some (.ok ex, w0))
    (h18 : units ≤ 18) (hl : ((1 + 2 ^ k) * units : ℝ) ≤ l) :
    ∃ s, lucbRun (envOf ex.scm choice choice2) (objOps (etaOps sk) realLib rng) ex.lucb none (⌊l⌋₊ + 2) (heapOf o ex.arms, w) = (.error .valueError, s) := by
  have hz := h.zLen
  have hv := h.vLen
  unfold example51 at hex
  rcases setup_good g (fun _ => True) (strength51 g) (fun s => ⟨_, _, rfl, trivial⟩) zDim vDim k h.paths (by omega) (by omega) fuel s0 with e | ⟨S, s', e, -⟩
  · simp [e] at hex
  · obtain ⟨scm, e1, e2⟩ := goodSource51 hr g h.paths (by omega) (by omega) e
    simp only [e, Option.some.injEq] at hex
    obtain ⟨ex', smp, w2, specs, e3, -, -, e4, e5, e6⟩ := exampleFromCpd_ok sk .finiteSample h latex e1 e2 s'.2
    obtain rfl : ex' = ex := Except.ok.inj (congrArg Prod.fst (e3.symm.trans hex))
    exact lucb_ties rng o choice choice2 w h e4 e2 e5 e6 h18 hl

/-- **C80 (violated)** The same for Section 5.2. -/
theorem C80_lucb_52_violated (hr : GoodNoise r) {lib : Nonlinear.GPLib K F ℝ} {pred : F → List ℝ → ℝ} (hp : RowWise lib pred) {kernel : K}
    (h : GoodArgs zDim vDim zCost vCost z0Cost k l units)
    (hex : example52 r lib kernel g sk zDim vDim zCost vCost z0Cost k (.fin l) units latex fuel s0 = some (.ok ex, w0))
    (h18 : units ≤ 18) (hl : ((1 + 2 ^ k) * units : ℝ) ≤ l) :
    ∃ s, lucbRun (envOf ex.scm choice choice2) (objOps (etaOps sk) realLib rng) ex.lucb none (⌊l⌋₊ + 2) (heapOf o ex.arms, w) = (.error .valueError, s) := by
  have hz := h.zLen
  have hv := h.vLen
  unfold example52 at hex
  rcases setup52_good lib g kernel zDim vDim k h.paths (by omega) (by omega) fuel s0 with e | ⟨S, fns, fx, fz, fy, s', e, -, -⟩
  · simp [e] at hex
  · obtain ⟨scm, e1, e2⟩ := goodSource52 hr hp kernel g h.paths hz hv ⟨h.zPos, h.vPos⟩ e
    simp only [e, Option.some.injEq] at hex
    obtain ⟨ex', smp, w2, specs, e3, -, -, e4, e5, e6⟩ := exampleFromCpd_ok sk .clt h latex e1 e2 s'.2
    obtain rfl : ex' = ex := Except.ok.inj (congrArg Prod.fst (e3.symm.trans hex))
    exact lucb_ties rng o choice choice2 w h e4 e2 e5 e6 h18 hl

end Runs

/-! ## Cases -/

/-- Estimators that can be fitted to everything scikit-learn accepts. -/
noncomputable def safeSklearn : Sklearn (Option ℝ) Unit := ⟨meanModel, fairLogistic, none, none, ()⟩

theorem safeSklearn_good : GoodSklearn safeSklearn := ⟨fun _ _ _ _ _ => rfl, fairLogistic_fits⟩

/-- A uniform generator that alternates between two numbers. -/
noncomputable def flipNoise : Noise Bool ℝ where
  gauss b := (1, b)
  unif b := (if b then 1 / 4 else 3 / 4, !b)
  mvn mean _ b := (mean, b)
  sqrt x := x
  sig _ := 1 / 2

theorem flipNoise_good : GoodNoise flipNoise :=
  ⟨fun a => by norm_num [flipNoise], fun b => by cases b <;> norm_num [flipNoise], fun _ _ _ => rfl⟩

/-- A generator for the parameters that always returns the same numbers. -/
noncomputable def flipGens : Gens Unit Bool where
  gauss _ := (1, ())
  unif _ _ _ := (1 / 2, ())
  globalUnif _ _ b := (1 / 2, b)
  randint _ b := (0, b)

theorem flip_draw (b : Bool) (j : Nat) : nthDraw flipNoise.unif b j = if (b ^^ decide (j % 2 = 1)) then 1 / 4 else 3 / 4 := by
  have h : ∀ j b, afterDraws flipNoise.unif b j = (b ^^ decide (j % 2 = 1)) := by
    intro j
    induction j with
    | zero => intro b; simp [afterDraws]
    | succ j ih =>
      intro b
      unfold afterDraws at ih ⊢
      rw [Function.iterate_succ, Function.comp, ih]
      rcases Nat.mod_two_eq_zero_or_one j with h | h
      · have : (j + 1) % 2 = 1 := by omega
        cases b <;> simp [flipNoise, h, this]
      · have : (j + 1) % 2 = 0 := by omega
        cases b <;> simp [flipNoise, h, this]
  unfold nthDraw
  rw [h]
  rfl

/-- half of an even number of alternating units are treated -/
theorem flip_sum (f : ℝ → ℝ) (b : Bool) (m : Nat) :
    ((List.range (2 * m)).map fun j => f (if (b ^^ decide (j % 2 = 1)) then 1 else 0)).sum = m * (f 0 + f 1) := by
  induction m with
  | zero => simp
  | succ m ih =>
    have h1 : 2 * m % 2 = 0 := by omega
    have h2 : (2 * m + 1) % 2 = 1 := by omega
    rw [show 2 * (m + 1) = 2 * m + 1 + 1 by ring, List.range_succ, List.range_succ]
    simp only [List.map_append, List.sum_append, ih, List.map_cons, List.map_nil, List.sum_cons, List.sum_nil, h1, h2]
    cases b <;> simp <;> ring

theorem flip_var (b : Bool) : pvar ((List.range (2 * 500)).map fun j => if (b ^^ decide (j % 2 = 1)) then (1 : ℝ) else 0) = 1 / 4 := by
  have hm : pmean ((List.range (2 * 500)).map fun j => if (b ^^ decide (j % 2 = 1)) then (1 : ℝ) else 0) = 1 / 2 := by
    have := flip_sum (fun x => x) b 500
    unfold pmean
    rw [this]
    norm_num
  unfold pvar
  rw [hm, List.map_map]
  have := flip_sum (fun x => (x - 1 / 2) ^ 2) b 500
  unfold pmean
  simp only [Function.comp_def]
  rw [this]
  norm_num

/-- the variance of the exposure is a lower bound for the scale -/
theorem subGscale_exp {k : Nat} (hk : 1 ≤ k) {smp : Sample ℝ} (h : GoodSample 1000 k smp) {xs : List ℝ} (hx : smp.exp = .d1 xs)
    (h01 : ∀ x ∈ xs, x = 0 ∨ x = 1) : ∃ g, pvar xs ≤ g ∧ subGscale (toData smp) = .fin g := by
  obtain ⟨us, e, hn, hu⟩ := toData_good h
  have hxs : us.map Obs.xv = xs := by
    have := congrArg ExpData.exp e
    simp only [toData, hx, Cpds.flatten, ExpData.new, Obs.dataset, Option.some.injEq] at this
    have h2 : (us.map Obs.x).map Cell.val = xs := by
      rw [← this, List.map_map]
      conv_rhs => rw [← List.map_id xs]
      refine List.map_congr_left fun x hx' => ?_
      rcases h01 x hx' with rfl | rfl <;> simp [Cell.val, trunc_zero, trunc_one]
    rw [← h2, List.map_map]
    rfl
  rw [e, subGscale_eq hk (by norm_num : 1 ≤ 1000) hn fun u hu' => (hu u hu').1, hxs]
  exact ⟨_, by have := pvar_nonneg (us.map Obs.zv).flatten; have := pvar_nonneg (us.map Obs.yv); linarith, rfl⟩

theorem demo_args (units : Nat) (h : 2 ≤ units) : GoodArgs [2, 1, 2] [0, 3, 1] 1 2 3 2 1000 units :=
  ⟨by norm_num, rfl, rfl, rfl, by simp, by simp, by norm_num, by norm_num, by norm_num, by norm_num, h⟩

/-- An example of Section 5.1 with two paths and five arms. -/
theorem flip_example (units : Nat) (h : 2 ≤ units) :
    ∃ ex w, example51 flipNoise flipGens safeSklearn [2, 1, 2] [0, 3, 1] 1 2 3 2 (.fin 1000) units false 0 ((), true) = some (.ok ex, w) ∧ WideScale ex := by
  have ha := demo_args units h
  obtain ⟨S, s', hS⟩ := const_setup flipGens ((), true) (strength51 flipGens) (fun s => ⟨_, _, rfl⟩) [2, 1, 2] [0, 3, 1] 2 (by simp) (by simp) (by simp) 0
  obtain ⟨scm, e1, e2⟩ := goodSource51 flipNoise_good flipGens (zDim := [2, 1, 2]) (vDim := [0, 3, 1]) (by simp) (by simp) (by simp) hS
  obtain ⟨ex, smp, w, specs, e3, e4, e5, e6, -⟩ := exampleFromCpd_ok safeSklearn .finiteSample ha false e1 e2 s'.2
  refine ⟨ex, w, by unfold example51; rw [hS]; exact congrArg some e3, ?_⟩
  obtain ⟨scm', f1, f2⟩ := C73_generates flipNoise flipNoise_good flipGens (strength51 flipGens) (fun s => ⟨_, _, rfl⟩) [2, 1, 2] [0, 3, 1] 2
    (by simp) (by simp) (by simp) 0 _ s' S hS 1000 (by simp)
  obtain rfl := Except.ok.inj (f1.symm.trans e1)
  obtain ⟨smp', w', f3, s, wAt, hq, -, hx, -⟩ := f2 s'.2
  obtain rfl : smp' = smp := Except.ok.inj (congrArg Prod.fst (f3.symm.trans e4))
  have hx' := hx.trans hq.x
  obtain ⟨g, g1, g2⟩ := subGscale_exp (totalDim_pos ha) e5 hx' (by
    intro x hx
    obtain ⟨j, -, rfl⟩ := List.mem_map.1 hx
    split <;> simp)
  have hv : (List.range 1000).map (fun j => if nthDraw flipNoise.unif (wAt "X") j < flipNoise.sig (∑ i ∈ Finset.range 2,
      Section5.inner (Cpds.rowAt (s ("V" ++ toString (i + 1))) j) (S.p.gamma.getD i [])) then (1 : ℝ) else 0) =
      (List.range (2 * 500)).map fun j => if (wAt "X" ^^ decide (j % 2 = 1)) then (1 : ℝ) else 0 := by
    refine List.map_congr_left fun j _ => ?_
    rw [flip_draw]
    cases (wAt "X" ^^ decide (j % 2 = 1)) <;> norm_num [flipNoise]
  rw [hv, flip_var] at g1
  rw [WideScale, e6.arms_eq]
  intro o ho
  obtain ⟨a, -, rfl⟩ := List.mem_map.1 ho
  exact ⟨g, g2, by linarith, le_max_of_le_left g1⟩

/-- After a LUCB run, a reset and a uniform run, the elimination bandit of this example returns a result. -/
example : ∃ ex w0, example51 flipNoise flipGens safeSklearn [2, 1, 2] [0, 3, 1] 1 2 3 2 (.fin 1000) 100 false 0 ((), true) = some (.ok ex, w0) ∧
    ∀ (rng : Rng Bool ℝ) (o : Obj (Option ℝ) Unit) (choice choice2) (w : Bool),
      Returns (seRun (envOf ex.scm choice choice2) (objOps (etaOps safeSklearn) realLib rng) ex.se none (⌊(1000 : ℝ)⌋₊ + 2)
        (BanditCall.exec (objOps (etaOps safeSklearn) realLib rng)
          [.lucb (envOf ex.scm choice choice2) ex.lucb none 50, .reset ex.lucb, .uniform (envOf ex.scm choice choice2) ex.uniform none 1002] (heapOf o ex.arms, w))) := by
  obtain ⟨ex, w0, e, hw⟩ := flip_example 100 (by norm_num)
  refine ⟨ex, w0, e, fun rng o choice choice2 w => (C80_runs_51 rng o choice choice2 w flipNoise_good safeSklearn_good (demo_args 100 (by norm_num)) e hw ?_).2⟩
  intro c hc
  simp only [List.mem_cons, List.not_mem_nil, or_false] at hc
  rcases hc with rfl | rfl | rfl
  · exact .lucb ..
  · exact .resetLucb
  · exact .uniform ..

/-- With 18 units per round the first LUCB run raises. -/
example : ∃ ex w0, example51 flipNoise flipGens safeSklearn [2, 1, 2] [0, 3, 1] 1 2 3 2 (.fin 1000) 18 false 0 ((), true) = some (.ok ex, w0) ∧
    ∀ (rng : Rng Bool ℝ) (o : Obj (Option ℝ) Unit) (choice choice2) (w : Bool),
      ∃ s, lucbRun (envOf ex.scm choice choice2) (objOps (etaOps safeSklearn) realLib rng) ex.lucb none (⌊(1000 : ℝ)⌋₊ + 2) (heapOf o ex.arms, w) = (.error .valueError, s) := by
  obtain ⟨ex, w0, e, -⟩ := flip_example 18 (by norm_num)
  exact ⟨ex, w0, e, fun rng o choice choice2 w => C80_lucb_51_violated rng o choice choice2 w flipNoise_good (demo_args 18 (by norm_num)) e le_rfl (by norm_num)⟩

/-- An example of Section 5.2 with two paths and five arms. -/
theorem demo_example52 (units : Nat) (h : 2 ≤ units) :
    ∃ ex w, example52 demoNoise demoLib () demoGens safeSklearn [2, 1, 2] [0, 3, 1] 1 2 3 2 (.fin 1000) units true 0 ((), ()) = some (.ok ex, w) := by
  rcases C80_construction_52 demoNoise_good (lib := demoLib) (pred := fun f row => row.sum + f) (fun _ _ => rfl) () demoGens safeSklearn (demo_args units h) true 0 ((), ()) with e | ⟨ex, w, e, -⟩
  · obtain ⟨S, fns, s', hS⟩ := demo_setup52 [2, 1, 2] [0, 3, 1] 2 (by simp) (by simp) (by simp) 0
    simp [example52, hS] at e
  · exact ⟨ex, w, e⟩

example : ∃ ex w0, example52 demoNoise demoLib () demoGens safeSklearn [2, 1, 2] [0, 3, 1] 1 2 3 2 (.fin 1000) 100 true 0 ((), ()) = some (.ok ex, w0) ∧
    ∀ (rng : Rng Unit ℝ) (o : Obj (Option ℝ) Unit) (choice choice2),
      Returns (uniformRun (envOf ex.scm choice choice2) (objOps (etaOps safeSklearn) realLib rng) ex.uniform none (⌊(1000 : ℝ)⌋₊ + 2)
        (BanditCall.exec (objOps (etaOps safeSklearn) realLib rng) [.se (envOf ex.scm choice choice2) ex.se none 1002, .reset ex.se] (heapOf o ex.arms, ()))) ∧
      ReturnsUnlessTied (objOps (etaOps safeSklearn) realLib rng) ex.lucb.arms
        (lucbRun (envOf ex.scm choice choice2) (objOps (etaOps safeSklearn) realLib rng) ex.lucb none (⌊(1000 : ℝ)⌋₊ + 2) (heapOf o ex.arms, ())) := by
  obtain ⟨ex, w0, e⟩ := demo_example52 100 (by norm_num)
  have hl : RowWise demoLib fun f row => row.sum + f := fun _ _ => rfl
  refine ⟨ex, w0, e, fun rng o choice choice2 =>
    ⟨(C80_runs_52 rng o choice choice2 () demoNoise_good hl safeSklearn_good (demo_args 100 (by norm_num)) e ?_).1,
     C80_lucb_52_partial (calls := []) rng o choice choice2 () demoNoise_good hl safeSklearn_good (demo_args 100 (by norm_num)) e (by simp)⟩⟩
  intro c hc
  simp only [List.mem_cons, List.not_mem_nil, or_false] at hc
  rcases hc with rfl | rfl
  · exact .se ..
  · exact .resetSe

example : ∃ ex w0, example52 demoNoise demoLib () demoGens safeSklearn [2, 1, 2] [0, 3, 1] 1 2 3 2 (.fin 1000) 10 true 0 ((), ()) = some (.ok ex, w0) ∧
    ∀ (rng : Rng Unit ℝ) (o : Obj (Option ℝ) Unit) (choice choice2),
      ∃ s, lucbRun (envOf ex.scm choice choice2) (objOps (etaOps safeSklearn) realLib rng) ex.lucb none (⌊(1000 : ℝ)⌋₊ + 2) (heapOf o ex.arms, ()) = (.error .valueError, s) := by
  obtain ⟨ex, w0, e⟩ := demo_example52 10 (by norm_num)
  exact ⟨ex, w0, e, fun rng o choice choice2 => C80_lucb_52_violated (pred := fun f row => row.sum + f) rng o choice choice2 () demoNoise_good (fun _ _ => rfl)
    (demo_args 10 (by norm_num)) e (by norm_num) (by norm_num)⟩

end PaperBandits
end Verif
