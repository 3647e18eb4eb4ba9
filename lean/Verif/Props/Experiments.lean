import Verif.Lemmas.Experiments
import Verif.Props.Section52

/-!
# C96: the experiments of the notebook
-/

set_option linter.unusedSectionVars false
set_option linter.unusedSimpArgs false

namespace Verif
namespace PaperBandits
open Section5 Arm Paper Bandit Plotting
variable {R K F W M P : Type}

section Repetitions
variable {r : Noise W ℝ} {g : Gens R W} {sk : Sklearn M P} {zDim vDim : List Nat} {zCost vCost z0Cost : ℝ} {k : Nat} {l : ℝ} {units : Nat} {latex : Bool}
  {fuel : Nat} {s0 : R × W} {ex : Example W M P} {w0 : W}
variable (rng : Rng W ℝ) (o : Obj M P) {heap heap' : Nat → Obj M P} (env : BanditEnv W (Cell ℝ)) (seed : Nat → W)

/-- **C96** The counts of a repetition of the experiment of Section 5.1 depend on the example, the data and `m` only: not on what was done with the arms
before (earlier repetitions, the comparison of variances, any other runs, failed or not), nor on the state of the global generator. -/
theorem C96_isolated_51 (hr : GoodNoise r) (hsk : GoodSklearn sk) (hcl : CleanClones sk) (h : GoodArgs zDim vDim zCost vCost z0Cost k l units)
    (hex : example51 r g sk zDim vDim zCost vCost z0Cost k (.fin l) units latex fuel s0 = some (.ok ex, w0)) (hg : WideScale ex)
    (hh : Reached sk (objOps (etaOps sk) realLib rng) rng (heapOf o ex.arms) heap)
    (hh' : Reached sk (objOps (etaOps sk) realLib rng) rng (heapOf o ex.arms) heap') (rounds : Nat) (all : ExpData (Cell ℝ)) (m : Nat) (w w' : W) :
    let ops := objOps (etaOps sk) realLib rng
    (repetition ops env seed ex rounds all m (heap, w)).1 = (repetition ops env seed ex rounds all m (heap', w')).1 ∧
      (repetition ops env seed ex rounds all m (heap, w)).2.2 = (repetition ops env seed ex rounds all m (heap', w')).2.2 := by
  obtain ⟨subG, specs, hR⟩ := runnable51 hr hsk h hex hg
  exact hR.isolated hcl rng o hh hh' env seed rounds all m w w'

/-- **C96** The same for Section 5.2. -/
theorem C96_isolated_52 (hr : GoodNoise r) {lib : Nonlinear.GPLib K F ℝ} {pred : F → List ℝ → ℝ} (hl : RowWise lib pred) {kernel : K} (hsk : GoodSklearn sk)
    (hcl : CleanClones sk) (h : GoodArgs zDim vDim zCost vCost z0Cost k l units)
    (hex : example52 r lib kernel g sk zDim vDim zCost vCost z0Cost k (.fin l) units latex fuel s0 = some (.ok ex, w0))
    (hh : Reached sk (objOps (etaOps sk) realLib rng) rng (heapOf o ex.arms) heap)
    (hh' : Reached sk (objOps (etaOps sk) realLib rng) rng (heapOf o ex.arms) heap') (rounds : Nat) (all : ExpData (Cell ℝ)) (m : Nat) (w w' : W) :
    let ops := objOps (etaOps sk) realLib rng
    (repetition ops env seed ex rounds all m (heap, w)).1 = (repetition ops env seed ex rounds all m (heap', w')).1 ∧
      (repetition ops env seed ex rounds all m (heap, w)).2.2 = (repetition ops env seed ex rounds all m (heap', w')).2.2 := by
  obtain ⟨subG, specs, hR⟩ := runnable52 hr hl hsk h hex
  exact hR.isolated hcl rng o hh hh' env seed rounds all m w w'

variable {limit : Nat}

/-- **C96 (partial)** The `n_repetitions` passes with an instance of Section 5.1 append that many plausible counts.  Missing: a pass in which all arms have
the same cost-adjusted estimate, which ends the cell with a `ValueError`. -/
theorem C96_repeats_51_partial (hr : GoodNoise r) (hsk : GoodSklearn sk) (hcl : CleanClones sk) (h : GoodArgs zDim vDim zCost vCost z0Cost k limit units)
    (hex : example51 r g sk zDim vDim zCost vCost z0Cost k (.fin limit) units latex fuel s0 = some (.ok ex, w0)) (hg : WideScale ex)
    (hh : Reached sk (objOps (etaOps sk) realLib rng) rng (heapOf o ex.arms) heap) (reps m : Nat) (w : W) :
    let ops := objOps (etaOps sk) realLib rng
    (∃ cs s, repeats ops env seed ex (limit + 2) limit units m reps (heap, w) = (.ok (some cs), s) ∧ cs.length = reps ∧
      ∀ c ∈ cs, Plausible ex.arms.length units limit c) ∨
    ∃ s, repeats ops env seed ex (limit + 2) limit units m reps (heap, w) = (.error .valueError, s) ∧ AllTie ops (List.range ex.arms.length) s.1 := by
  obtain ⟨subG, specs, hR⟩ := runnable51 hr hsk h hex hg
  have := hR.repeats hcl rng o env seed rfl reps m hh w
  rwa [Nat.floor_natCast, hR.length_eq] at this

/-- **C96 (partial)** The same for Section 5.2. -/
theorem C96_repeats_52_partial (hr : GoodNoise r) {lib : Nonlinear.GPLib K F ℝ} {pred : F → List ℝ → ℝ} (hl : RowWise lib pred) {kernel : K} (hsk : GoodSklearn sk)
    (hcl : CleanClones sk) (h : GoodArgs zDim vDim zCost vCost z0Cost k limit units)
    (hex : example52 r lib kernel g sk zDim vDim zCost vCost z0Cost k (.fin limit) units latex fuel s0 = some (.ok ex, w0))
    (hh : Reached sk (objOps (etaOps sk) realLib rng) rng (heapOf o ex.arms) heap) (reps m : Nat) (w : W) :
    let ops := objOps (etaOps sk) realLib rng
    (∃ cs s, repeats ops env seed ex (limit + 2) limit units m reps (heap, w) = (.ok (some cs), s) ∧ cs.length = reps ∧
      ∀ c ∈ cs, Plausible ex.arms.length units limit c) ∨
    ∃ s, repeats ops env seed ex (limit + 2) limit units m reps (heap, w) = (.error .valueError, s) ∧ AllTie ops (List.range ex.arms.length) s.1 := by
  obtain ⟨subG, specs, hR⟩ := runnable52 hr hl hsk h hex
  have := hR.repeats hcl rng o env seed rfl reps m hh w
  rwa [Nat.floor_natCast, hR.length_eq] at this

end Repetitions

/-- Section 5.1, five arms: before the repetition, one of the arms is fitted for the comparison of variances and LUCB is run on other data. -/
example : ∃ ex w0, example51 flipNoise flipGens safeSklearn [2, 1, 2] [0, 3, 1] 1 2 3 2 (.fin 1000) 100 false 0 ((), true) = some (.ok ex, w0) ∧
    ∀ (rng : Rng Bool ℝ) (o : Obj (Option ℝ) Unit) (env : BanditEnv Bool (Cell ℝ)) (temp other all : ExpData (Cell ℝ)) (rounds m : Nat) (w w' : Bool),
      let ops := objOps (etaOps safeSklearn) realLib rng
      let fitted := (armGap (etaOps safeSklearn) rng temp 3 (heapOf o ex.arms, w)).2.1
      let used := (BanditCall.exec ops [.lucb env ex.lucb (some other) 7] (fitted, w)).1
      (repetition ops env Nat.bodd ex rounds all m (used, w)).1 = (repetition ops env Nat.bodd ex rounds all m (heapOf o ex.arms, w')).1 := by
  obtain ⟨ex, w0, e, hw⟩ := flip_example 100 (by norm_num)
  refine ⟨ex, w0, e, fun rng o env temp other all rounds m w w' => ?_⟩
  exact (C96_isolated_51 rng o env Nat.bodd flipNoise_good safeSklearn_good safeSklearn_clones (demo_args 100 (by norm_num)) e hw
    (.calls _ w (.gap temp 3 w .new)) .new rounds all m w w').1

/-- Three repetitions with an instance of Section 5.2. -/
example : ∃ ex w0, example52 demoNoise demoLib () demoGens safeSklearn [2, 1, 2] [0, 3, 1] 1 2 3 2 (.fin 1000) 100 true 0 ((), ()) = some (.ok ex, w0) ∧
    ∀ (rng : Rng Unit ℝ) (o : Obj (Option ℝ) Unit) (env : BanditEnv Unit (Cell ℝ)) (w : Unit),
      let ops := objOps (etaOps safeSklearn) realLib rng
      (∃ cs s, repeats ops env (fun _ => ()) ex 1002 1000 100 0 3 (heapOf o ex.arms, w) = (.ok (some cs), s) ∧ cs.length = 3 ∧
        ∀ c ∈ cs, Plausible ex.arms.length 100 (1000 : Nat) c) ∨
      ∃ s, repeats ops env (fun _ => ()) ex 1002 1000 100 0 3 (heapOf o ex.arms, w) = (.error .valueError, s) ∧ AllTie ops (List.range ex.arms.length) s.1 := by
  obtain ⟨ex, w0, e⟩ := demo_example52 100 (by norm_num)
  have hl : RowWise demoLib fun f row => row.sum + f := fun _ _ => rfl
  refine ⟨ex, w0, e, fun rng o env w => ?_⟩
  have hc : ((1000 : Nat) : ℝ) = 1000 := by norm_num
  exact C96_repeats_52_partial (limit := 1000) rng o env (fun _ => ()) demoNoise_good hl safeSklearn_good safeSklearn_clones (hc ▸ demo_args 100 (by norm_num)) (by rw [hc]; exact e) .new 3 0 w

/-! ## The loop over the instances -/

/-- **C96** The loop over the instances, with any examples and any passes that give nothing or `reps` entries that satisfy `Q`, and `j` instances accepted
before: if it completes, the history has `n - j` more instances in increasing order, each `reps` times in a row. -/
theorem C96_history {make : Nat → W → Option (Except PyErr (Example W M P) × W)} {pass : Example W M P → W → Except PyErr (Option (List Counts)) × W}
    {reps n : Nat} (hreps : 1 ≤ reps) {Q : Counts → Prop}
    (hpass : ∀ i w ex w1 cs w2, make i w = some (.ok ex, w1) → pass ex w1 = (.ok (some cs), w2) → cs = [] ∨ (cs.length = reps ∧ ∀ c ∈ cs, Q c))
    (tries : Nat) : ∀ (i j : Nat) (w w' : W) (hist : List (Nat × Counts)), j ≤ n → comparison make pass (n * reps) tries i (j * reps) w = some (.ok hist, w') →
    (∃ L : List Nat, L.Pairwise (· < ·) ∧ (∀ a ∈ L, i ≤ a) ∧ L.length + j = n ∧ hist.map Prod.fst = L.flatMap (List.replicate reps)) ∧ ∀ e ∈ hist, Q e.2 := by
  induction tries with
  | zero =>
    intro i j w w' hist hj e
    rw [comparison] at e
    by_cases hle : n * reps ≤ j * reps
    · rw [if_pos hle] at e
      cases e
      have := Nat.le_of_mul_le_mul_right hle hreps
      exact ⟨⟨[], List.Pairwise.nil, by simp, by simp; omega, rfl⟩, by simp⟩
    · rw [if_neg hle] at e; cases e
  | succ tries ih =>
    intro i j w w' hist hj e
    rw [comparison] at e
    by_cases hle : n * reps ≤ j * reps
    · rw [if_pos hle] at e
      cases e
      have := Nat.le_of_mul_le_mul_right hle hreps
      exact ⟨⟨[], List.Pairwise.nil, by simp, by simp; omega, rfl⟩, by simp⟩
    · rw [if_neg hle] at e
      have hlt : j < n := by
        by_contra hc
        exact hle (Nat.mul_le_mul_right _ (by omega))
      generalize hmk : make i w = mk at e
      rcases mk with _ | ⟨x | ex, w1⟩
      · cases e
      · cases e
      · dsimp only at e
        generalize hps : pass ex w1 = ps at e
        rcases ps with ⟨x | _ | cs, w2⟩
        · cases e
        · cases e
        · dsimp only at e
          generalize hrec : comparison make pass (n * reps) tries (i + 1) (j * reps + cs.length) w2 = rec at e
          rcases rec with _ | ⟨x | rest, w3⟩
          · cases e
          · cases e
          · simp only [Option.some.injEq, Prod.mk.injEq, Except.ok.injEq] at e
            obtain ⟨rfl, rfl⟩ := e
            rcases hpass i w ex w1 cs w2 hmk hps with rfl | ⟨hl, hq⟩
            · simp only [List.length_nil, Nat.add_zero] at hrec
              obtain ⟨⟨L, l1, l2, l3, l4⟩, h2⟩ := ih (i + 1) j w2 w3 rest hj hrec
              exact ⟨⟨L, l1, fun a ha => by have := l2 a ha; omega, l3, by simpa using l4⟩, by simpa using h2⟩
            · rw [hl, ← Nat.succ_mul] at hrec
              obtain ⟨⟨L, l1, l2, l3, l4⟩, h2⟩ := ih (i + 1) (j + 1) w2 w3 rest hlt hrec
              refine ⟨⟨i :: L, List.pairwise_cons.2 ⟨fun a ha => by have := l2 a ha; omega, l1⟩, ?_, by simp; omega, ?_⟩, ?_⟩
              · intro a ha
                rcases List.mem_cons.1 ha with rfl | ha
                · exact le_refl _
                · have := l2 a ha; omega
              · rw [List.map_append, l4, List.flatMap_cons, List.map_map, ← hl]
                congr 1
                exact List.map_const'
              · intro e he
                rcases List.mem_append.1 he with he | he
                · obtain ⟨c, hc, rfl⟩ := List.mem_map.1 he
                  exact hq c hc
                · exact h2 e he

/-- Only even instances are accepted, two repetitions each: after three of them the loop ends. -/
example (ex : Example Unit M P) : ∃ hist, comparison (fun i _ => some (.ok { ex with lucb := { ex.lucb with unitsPerRound := i } }, ()))
    (fun ex _ => (.ok (some (if ex.lucb.unitsPerRound % 2 = 0 then [⟨ex.lucb.unitsPerRound, 1, 2⟩, ⟨4, 3, 9⟩] else [])), ())) (3 * 2) 10 0 (0 * 2) () =
      some (.ok hist, ()) ∧ hist.map Prod.fst = [0, 0, 2, 2, 4, 4] ∧
    ∃ L : List Nat, L.Pairwise (· < ·) ∧ (∀ a ∈ L, 0 ≤ a) ∧ L.length + 0 = 3 ∧ hist.map Prod.fst = L.flatMap (List.replicate 2) := by
  refine ⟨_, by simp [comparison]; rfl, rfl, ?_⟩
  refine (C96_history (n := 3) (reps := 2) (by norm_num) (Q := fun _ => True) (fun i w ex' w1 cs w2 _ e => ?_) 10 0 0 () () _ (by norm_num) (by simp [comparison] :
    comparison (fun i _ => some (.ok { ex with lucb := { ex.lucb with unitsPerRound := i } }, ()))
    (fun ex _ => (.ok (some (if ex.lucb.unitsPerRound % 2 = 0 then [⟨ex.lucb.unitsPerRound, 1, 2⟩, ⟨4, 3, 9⟩] else [])), ())) (3 * 2) 10 0 (0 * 2) () = _)).1
  simp only [Prod.mk.injEq, Except.ok.injEq, Option.some.injEq] at e
  rw [← e.1]
  split
  · right; simp
  · left; rfl

theorem reached_gapLoop {sk : Sklearn M P} {rng : Rng W ℝ} {heap0 : Nat → Obj M P} (temp : ExpData (Cell ℝ)) (as : List Nat) :
    ∀ (s : (Nat → Obj M P) × W), Reached sk (objOps (etaOps sk) realLib rng) rng heap0 s.1 →
    Reached sk (objOps (etaOps sk) realLib rng) rng heap0 (gapLoop (etaOps sk) rng temp as s).2.1 := by
  induction as with
  | nil => exact fun s hs => hs
  | cons a as ih =>
    rintro ⟨heap, w⟩ hs
    have h1 := Reached.gap temp a w hs
    rw [gapLoop]
    simp only [Py.bind_apply, Py.pure_apply]
    dsimp only at h1
    generalize armGap (etaOps sk) rng temp a (heap, w) = x at h1 ⊢
    rcases x with ⟨x | v, s1⟩
    · exact h1
    · have h2 := ih s1 h1
      dsimp only
      generalize gapLoop (etaOps sk) rng temp as s1 = y at h2 ⊢
      rcases y with ⟨x | vs, s2⟩ <;> exact h2

theorem Runnable.pass {sk : Sklearn M P} {alg : CIAlgorithm} {subG : Fl ℝ} {specs : List (ArmSpec ℝ)} {k : Nat} {l : ℝ} {units : Nat} {ex : Example W M P}
    (h : Runnable sk alg subG specs k l units ex) (hcl : CleanClones sk) (rng : Rng W ℝ) (choice choice2) (seed : Nat → W) (o : Obj M P) {limit : Nat}
    (hlim : l = limit) (reps : Nat) (w w' : W) (cs : List Counts)
    (e : instancePass sk rng choice choice2 seed o (limit + 2) limit units reps ex w = (.ok (some cs), w')) :
    cs = [] ∨ (cs.length = reps ∧ ∀ c ∈ cs, Plausible specs.length units l c) := by
  unfold instancePass at e
  generalize generate ex.scm 10000 w = x at e
  rcases x with ⟨x | temp, w1⟩
  · cases e
  · dsimp only at e
    have hre := reached_gapLoop (sk := sk) (rng := rng) temp (List.range ex.arms.length) (heapOf o ex.arms, w1) .new
    generalize gapLoop (etaOps sk) rng temp (List.range ex.arms.length) (heapOf o ex.arms, w1) = y at e hre
    rcases y with ⟨x | vs, s⟩
    · cases e
    · dsimp only at e
      generalize clearGap vs = z at e
      rcases z with x | _ | _
      · cases e
      · cases e; exact Or.inl rfl
      · dsimp only at e
        rcases h.repeats hcl rng o (envOf ex.scm choice choice2) seed hlim reps 0 hre s.2 with ⟨cs', s', e1, e2, e3⟩ | ⟨s', e1, -⟩
        · rw [hlim, Nat.floor_natCast] at e1
          dsimp only at e1
          rw [e1] at e
          cases e
          exact Or.inr ⟨e2, e3⟩
        · rw [hlim, Nat.floor_natCast] at e1
          dsimp only at e1
          rw [e1] at e
          cases e

section Comparison
variable {r : Noise W ℝ} {g : Gens R W} {sk : Sklearn M P} {zDim vDim : List Nat} {zCost vCost z0Cost : ℝ} {k limit : Nat} {units : Nat} {latex : Bool} {fuel : Nat}
variable (rng : Rng W ℝ) (o : Obj M P) (choice : (n : Nat) → 0 < n → W → Fin n × W)
  (choice2 : (n : Nat) → 2 ≤ n → W → { p : Fin n × Fin n // p.1 ≠ p.2 } × W) (seed : Nat → W) (newRng : Nat → R)

/-- **C96** If the cell for Section 5.1 completes, `instance_history` has `n_instances` different instances in increasing order, each `n_repetitions` times
in a row, and there are as many counts, all of them plausible for the `1 + 2 ^ M` arms. -/
theorem C96_comparison_51 (hr : GoodNoise r) (hsk : GoodSklearn sk) (hcl : CleanClones sk) (h : GoodArgs zDim vDim zCost vCost z0Cost k limit units)
    (hg : ∀ s ex w', example51 r g sk zDim vDim zCost vCost z0Cost k (.fin limit) units latex fuel s = some (.ok ex, w') → WideScale ex)
    {n reps : Nat} (hreps : 1 ≤ reps) (tries : Nat) (w w' : W) (hist : List (Nat × Counts))
    (e : comparison (fun i w => example51 r g sk zDim vDim zCost vCost z0Cost k (.fin limit) units latex fuel (newRng i, w))
      (instancePass sk rng choice choice2 seed o (limit + 2) limit units reps) (n * reps) tries 0 0 w = some (.ok hist, w')) :
    (∃ L : List Nat, L.Pairwise (· < ·) ∧ L.length = n ∧ hist.map Prod.fst = L.flatMap (List.replicate reps)) ∧
    ∀ e ∈ hist, Plausible (1 + 2 ^ k) units limit e.2 := by
  obtain ⟨⟨L, l1, -, l3, l4⟩, h2⟩ := C96_history (n := n) (Q := Plausible (1 + 2 ^ k) units (limit : ℝ)) hreps (fun i w ex w1 cs w2 hmk hps => by
    obtain ⟨subG, specs, hR⟩ := runnable51 hr hsk h hmk (hg _ _ _ hmk)
    have hlen : ex.arms.length = 1 + 2 ^ k := by
      rcases C80_construction_51 hr g sk h latex fuel (newRng i, w) with e' | ⟨ex', w', e', hp, -⟩
      · rw [hmk] at e'; cases e'
      · rw [hmk] at e'; cases e'; exact hp
    have := hR.pass hcl rng choice choice2 seed o rfl reps w1 w2 cs hps
    rwa [hR.length_eq, hlen] at this) tries 0 0 w w' hist (Nat.zero_le _) (by rwa [Nat.zero_mul])
  exact ⟨⟨L, l1, l3, l4⟩, h2⟩

/-- **C96** The same for Section 5.2. -/
theorem C96_comparison_52 (hr : GoodNoise r) {lib : Nonlinear.GPLib K F ℝ} {pred : F → List ℝ → ℝ} (hl : RowWise lib pred) {kernel : K} (hsk : GoodSklearn sk)
    (hcl : CleanClones sk) (h : GoodArgs zDim vDim zCost vCost z0Cost k limit units)
    {n reps : Nat} (hreps : 1 ≤ reps) (tries : Nat) (w w' : W) (hist : List (Nat × Counts))
    (e : comparison (fun i w => example52 r lib kernel g sk zDim vDim zCost vCost z0Cost k (.fin limit) units latex fuel (newRng i, w))
      (instancePass sk rng choice choice2 seed o (limit + 2) limit units reps) (n * reps) tries 0 0 w = some (.ok hist, w')) :
    (∃ L : List Nat, L.Pairwise (· < ·) ∧ L.length = n ∧ hist.map Prod.fst = L.flatMap (List.replicate reps)) ∧
    ∀ e ∈ hist, Plausible (1 + 2 ^ k) units limit e.2 := by
  obtain ⟨⟨L, l1, -, l3, l4⟩, h2⟩ := C96_history (n := n) (Q := Plausible (1 + 2 ^ k) units (limit : ℝ)) hreps (fun i w ex w1 cs w2 hmk hps => by
    obtain ⟨subG, specs, hR⟩ := runnable52 hr hl hsk h hmk
    have hlen : ex.arms.length = 1 + 2 ^ k := by
      rcases C80_construction_52 hr hl kernel g sk h latex fuel (newRng i, w) with e' | ⟨ex', w', e', hp, -⟩
      · rw [hmk] at e'; cases e'
      · rw [hmk] at e'; cases e'; exact hp
    have := hR.pass hcl rng choice choice2 seed o rfl reps w1 w2 cs hps
    rwa [hR.length_eq, hlen] at this) tries 0 0 w w' hist (Nat.zero_le _) (by rwa [Nat.zero_mul])
  exact ⟨⟨L, l1, l3, l4⟩, h2⟩

end Comparison

/-! ## The loop over the numbers of back-door paths -/

section Scaling
variable {r : Noise W ℝ} {g : Gens R W} {sk : Sklearn M P}
variable (rng : Rng W ℝ) (o : Obj M P) (choice : (n : Nat) → 0 < n → W → Fin n × W)
  (choice2 : (n : Nat) → 2 ≤ n → W → { p : Fin n × Fin n // p.1 ≠ p.2 } × W) (seed : Nat → W) (newRng : Nat → R)

/-- **C96 (violation)** The third experiment sets up dimensions for `num_back_door` back-door paths but makes the example with three: with more than three
the pass raises an `IndexError` (unless the selection of the effect does not end). -/
theorem C96_scaling_violated (hr : GoodNoise r) {lib : Nonlinear.GPLib K F ℝ} {pred : F → List ℝ → ℝ} (hl : RowWise lib pred) (kernel : K)
    {k : Nat} (hk : 4 ≤ k) (fuel i limit units : Nat) (w : W) :
    scalingStep r lib kernel g sk rng choice choice2 seed newRng o fuel 3 i k limit units w = none ∨
    ∃ w', scalingStep r lib kernel g sk rng choice choice2 seed newRng o fuel 3 i k limit units w = some (.error .indexError, w') := by
  unfold scalingStep example52
  have hz : (2 :: List.replicate k 3).length = k + 1 := by simp
  have hv : (0 :: List.replicate k 2).length = k + 1 := by simp
  rcases setup52_good lib g kernel (2 :: List.replicate k 3) (0 :: List.replicate k 2) 3 (by norm_num) (by omega) (by omega) fuel (newRng i, w) with
    e | ⟨S, fns, fx, fz, fy, s', e, -, -⟩
  · left; simp only [e]
  · right
    obtain ⟨scm, e1, e2⟩ := C74_surplus_violated r hr lib pred hl g kernel (2 :: List.replicate k 3) (0 :: List.replicate k 2) 3 (by norm_num) (by omega) (by omega)
      (by omega) ⟨by simp, by simp⟩ fuel _ _ S fns e 1000 (by norm_num)
    obtain ⟨w2, e3⟩ := e2 s'.2
    have e4 := armList_ok (2 :: List.replicate k 3) (0 :: List.replicate k 2) (2 : ℝ) 1 5 3 false (by norm_num) (by omega) (by omega)
    refine ⟨w2, ?_⟩
    simp only [e]
    unfold exampleFromCpd
    simp only [Py.bind_apply, Py.lift_apply, Py.pure_apply, e1, e4, generate, e3]

theorem scaling_fails {step : Nat → Nat → Nat → W → Option (Except PyErr (Option Counts) × W)} {k limit : Nat}
    (hstep : ∀ i w, step i k limit w = none ∨ ∃ e w', step i k limit w = some (.error e, w')) (list : List (Nat × Nat)) (hmem : (k, limit) ∈ list) :
    ∀ i w cs w', scaling step i list w ≠ some (.ok cs, w') := by
  induction list with
  | nil => simp at hmem
  | cons p list ih =>
    obtain ⟨k', limit'⟩ := p
    intro i w cs w' e
    rw [scaling] at e
    rcases List.mem_cons.1 hmem with hm | hm
    · cases hm
      rcases hstep i w with h | ⟨x, w1, h⟩
      · simp [h] at e
      · simp [h] at e
    · generalize step i k' limit' w = x at e
      rcases x with _ | ⟨x | _ | c, w1⟩
      · cases e
      · cases e
      · cases e
      · dsimp only at e
        have := ih hm (i + 1) w1
        generalize scaling step (i + 1) list w1 = y at e this
        rcases y with _ | ⟨x | cs', w2⟩
        · cases e
        · cases e
        · exact this cs' w2 rfl

/-- **C96 (violation)** So the cell never completes: no run of its loop over the thirty instances ends without an exception. -/
theorem C96_cell_violated (hr : GoodNoise r) {lib : Nonlinear.GPLib K F ℝ} {pred : F → List ℝ → ℝ} (hl : RowWise lib pred) (kernel : K) (fuel : Nat) (w w' : W)
    (cs : List (Nat × Counts)) :
    scaling (fun i k limit w => scalingStep r lib kernel g sk rng choice choice2 seed newRng o fuel 3 i k limit 500 w) 0 scalingList w ≠ some (.ok cs, w') := by
  refine scaling_fails (k := 4) (limit := 100000) (fun i w => ?_) scalingList (by decide) 0 w cs w'
  rcases C96_scaling_violated (g := g) (sk := sk) rng o choice choice2 seed newRng hr hl kernel (le_refl 4) fuel i 100000 500 w with h | ⟨w', h⟩
  · exact Or.inl h
  · exact Or.inr ⟨_, w', h⟩

/-- **C96 (partial)** With `num_back_door_paths=num_back_door` the pass gives plausible counts for the `1 + 2 ^ num_back_door` arms the plot assumes.  Missing:
a selection of the effect that does not end, and a run in which all arms have the same cost-adjusted estimate. -/
theorem C96_scaling_intended_partial (hr : GoodNoise r) {lib : Nonlinear.GPLib K F ℝ} {pred : F → List ℝ → ℝ} (hl : RowWise lib pred) (kernel : K)
    (hsk : GoodSklearn sk) (hcl : CleanClones sk) {k : Nat} (hk : 1 ≤ k) (i limit : Nat) {units : Nat} (hu : 2 ≤ units) (w : W) :
    let x := scalingStep r lib kernel g sk rng choice choice2 seed newRng o (limit + 2) k i k limit units w
    x = none ∨ (∃ c w', x = some (.ok (some c), w') ∧ Plausible (1 + 2 ^ k) units limit c) ∨ ∃ w', x = some (.error .valueError, w') := by
  intro x
  have hargs : GoodArgs (2 :: List.replicate k 3) (0 :: List.replicate k 2) 2 1 5 k (limit : ℝ) units :=
    ⟨hk, by simp, by simp, by simp, by simp, by simp, by norm_num, by norm_num, by norm_num, Nat.cast_nonneg _, hu⟩
  rcases C80_construction_52 hr hl kernel g sk hargs false (limit + 2) (newRng i, w) with e | ⟨ex, w1, e, hlen, -⟩
  · left
    simp only [x, scalingStep, e]
  · right
    obtain ⟨subG, specs, hR⟩ := runnable52 hr hl hsk hargs e
    have hpos : 1 ≤ limit + units * ex.arms.length := by
      have := Nat.mul_le_mul hu (hR.length_eq ▸ hR.two)
      omega
    obtain ⟨smp, w2, e1, hg⟩ := hR.source (limit + units * ex.arms.length) hpos (seed i)
    have hn : (limit : ℝ) + ((specs.length * units : Nat) : ℝ) ≤ ((toData smp).nUnits : ℝ) := by
      rw [toData_nUnits hg, ← hR.length_eq, Nat.mul_comm units]
      push_cast
      exact le_refl _
    have eg : generate ex.scm (limit + units * ex.arms.length) (seed i) = (.ok (toData smp), w2) := by simp [generate, e1]
    rcases hR.repetition hcl rng o .new (envOf ex.scm choice choice2) seed i w2 (toData_good hg) hn with ⟨c, s, e2, hp⟩ | ⟨s, e2, -⟩
    · left
      rw [Nat.floor_natCast] at e2
      refine ⟨c, s.2, by simp only [x, scalingStep, e, eg, e2], ?_⟩
      rwa [hR.length_eq, hlen] at hp
    · right
      rw [Nat.floor_natCast] at e2
      exact ⟨s.2, by simp only [x, scalingStep, e, eg, e2]⟩

end Scaling

theorem demo_scaling (rng : Rng Unit ℝ) (o : Obj (Option ℝ) Unit) (choice choice2) (w : Unit) (fuel paths i k limit units : Nat) (h1 : 1 ≤ paths) (h2 : paths ≤ k) :
    scalingStep demoNoise demoLib () demoGens safeSklearn rng choice choice2 (fun _ => ()) (fun _ => ()) o fuel paths i k limit units w ≠ none := by
  obtain ⟨S, fns, s', hS⟩ := demo_setup52 (2 :: List.replicate k 3) (0 :: List.replicate k 2) paths h1 (by simp; omega) (by simp; omega) fuel
  unfold scalingStep example52
  rw [hS]
  dsimp only
  generalize exampleFromCpd safeSklearn _ _ _ _ _ _ _ _ _ _ _ _ = x
  rcases x with ⟨x | ex, w1⟩
  · simp
  · dsimp only
    generalize generate ex.scm _ _ = y
    rcases y with ⟨y | d, w2⟩ <;> simp

/-- With four paths, the cell as it is raises, and the corrected one returns plausible counts or stops at a tie. -/
example (rng : Rng Unit ℝ) (o : Obj (Option ℝ) Unit) (choice choice2) (w : Unit) :
    (∃ w', scalingStep demoNoise demoLib () demoGens safeSklearn rng choice choice2 (fun _ => ()) (fun _ => ()) o 100 3 0 4 100000 500 w =
        some (.error .indexError, w')) ∧
    (let x := scalingStep demoNoise demoLib () demoGens safeSklearn rng choice choice2 (fun _ => ()) (fun _ => ()) o (100000 + 2) 4 0 4 100000 500 w
     (∃ c w', x = some (.ok (some c), w') ∧ Plausible (1 + 2 ^ 4) 500 (100000 : Nat) c) ∨ ∃ w', x = some (.error .valueError, w')) := by
  have hl : RowWise demoLib fun f row => row.sum + f := fun _ _ => rfl
  refine ⟨?_, ?_⟩
  · exact (C96_scaling_violated (g := demoGens) (sk := safeSklearn) rng o choice choice2 (fun _ => ()) (fun _ => ()) demoNoise_good hl () (le_refl 4) 100 0 100000 500 w).resolve_left
      (demo_scaling _ _ _ _ _ _ _ _ _ _ _ (by norm_num) (by norm_num))
  · exact (C96_scaling_intended_partial (g := demoGens) (sk := safeSklearn) rng o choice choice2 (fun _ => ()) (fun _ => ()) demoNoise_good hl () safeSklearn_good
      safeSklearn_clones (k := 4) (by norm_num) 0 100000 (units := 500) (by norm_num) w).resolve_left (demo_scaling _ _ _ _ _ _ _ _ _ _ _ (by norm_num) (by norm_num))

end PaperBandits
end Verif
