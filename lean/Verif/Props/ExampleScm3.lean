import Verif.Lemmas.BackDoorUnit2
import Verif.Props.ExampleScm2
import Verif.Props.TestUtils
import Verif.Props.EndToEnd2

/-!
# Property C101: on the data of the back-door example, the arms recover the effect returned with the SCM
-/

set_option linter.unusedSectionVars false
set_option linter.unusedSimpArgs false

namespace Verif
open MeasureTheory ProbabilityTheory Filter Topology

/-! ## `run_single_arm` -/

section
open TestUtils
variable {S W : Type} {ops : ArmOps S W (Cell ℝ) ℝ} {ate : S → Option (Fl ℝ)} {generate : ℕ → Py W (ExpData (Cell ℝ))} {m : ℕ} {δ : Fl ℝ} {st : ℕ → S × W}

theorem rounds_of (h : ∀ n, Round ops generate m δ (st n) (st (n + 1))) (K n : ℕ) : TestUtils.Rounds ops generate m δ (st n) ((List.range K).map fun k => st (n + k + 1)) := by
  induction K generalizing n with
  | zero => trivial
  | succ K ih =>
    rw [List.range_succ_eq_map, List.map_cons, List.map_map]
    refine ⟨h n, ?_⟩
    have := ih (n + 1)
    convert this using 2
    funext k
    simp only [Function.comp]
    congr 1
    omega

theorem recovers_of_rounds (hm : 1 ≤ m) (h : ∀ n, Round ops generate m δ (st n) (st (n + 1))) {a q l r : ℕ → ℝ} {θ v : ℝ}
    (he : ∀ᶠ n in atTop, ate (st n).1 = some (.fin (a n)) ∧ ops.varEst (st n).1 = some (.fin (q n)) ∧ ops.ci (st n).1 = (some (.fin (l n)), some (.fin (r n))))
    (ha : Tendsto a atTop (𝓝 θ)) (hq : Tendsto q atTop (𝓝 v)) (hl : Tendsto l atTop (𝓝 v)) (hr : Tendsto r atTop (𝓝 v)) :
    Recovers ops ate generate m δ (st 0) θ v := by
  intro ε hε
  have close : ∀ {f : ℕ → ℝ} {x : ℝ}, Tendsto f atTop (𝓝 x) → ∀ᶠ n in atTop, |f n - x| < ε := fun hf => by
    have := Metric.tendsto_atTop.1 hf ε hε
    simpa [Real.dist_eq] using this
  obtain ⟨n0, hn0⟩ := eventually_atTop.1 (he.and ((close ha).and ((close hq).and ((close hl).and (close hr)))))
  refine ⟨n0 * m + 1, fun M hM => ?_⟩
  have hK : n0 < roundsNeeded M m := (lt_roundsNeeded M m hm n0).2 (by omega)
  obtain ⟨K, hK'⟩ : ∃ K, roundsNeeded M m = K + 1 := ⟨roundsNeeded M m - 1, by omega⟩
  obtain ⟨⟨e1, e2, e3⟩, c1, c2, c3, c4⟩ := hn0 (K + 1) (by omega)
  let sts := (List.range (K + 1)).map fun k => st (0 + k + 1)
  have hlast : ∀ {X : Type} (f : S × W → X), (sts.map f).getLast? = some (f (st (K + 1))) := by
    intro X f
    simp only [sts, List.range_succ, List.map_append, List.map_cons, List.map_nil, List.getLast?_append, List.getLast?_singleton, Option.some_or]
    congr 3
    omega
  obtain ⟨d, hd⟩ : ∃ d : Dict String (List (Entry ℝ)), d.map Prod.fst = ["LCBs", "UCBs", "var_estimates", "ATE_estmitates", "n_samples"] ∧
        d.get? "LCBs" = some (sts.map fun x => .num (ops.ci x.1).1) ∧
        d.get? "UCBs" = some (sts.map fun x => .num (ops.ci x.1).2) ∧
        d.get? "var_estimates" = some (sts.map fun x => .num (ops.varEst x.1)) ∧
        d.get? "ATE_estmitates" = some (sts.map fun x => .num (ate x.1)) ∧
        d.get? "n_samples" = some ((List.range sts.length).map fun k : Nat => .int ((k + 1) * m)) := by
    refine ⟨[("LCBs", sts.map fun x => .num (ops.ci x.1).1), ("UCBs", sts.map fun x => .num (ops.ci x.1).2), ("var_estimates", sts.map fun x => .num (ops.varEst x.1)),
      ("ATE_estmitates", sts.map fun x => .num (ate x.1)), ("n_samples", (List.range sts.length).map fun k : Nat => .int ((k + 1) * m))], rfl, ?_, ?_, ?_, ?_, ?_⟩
    all_goals simp only [Dict.get?, String.reduceEq, reduceIte, if_true, if_false]
  have hrun := (C66_bookkeeping ops ate generate M m hm δ (roundsNeeded M m) le_rfl (st 0) (sts.getLastD (st 0)) (some d)).2
    ⟨sts, d, by simp [sts, hK'], rounds_of h (K + 1) 0, rfl, rfl, hd⟩
  refine ⟨_, d, _, hrun, ⟨_, a (K + 1), hd.2.2.2.2.1, ?_, c1⟩, ⟨_, q (K + 1), hd.2.2.2.1, ?_, c2⟩, ⟨_, l (K + 1), hd.2.1, ?_, c3⟩, ⟨_, r (K + 1), hd.2.2.1, ?_, c4⟩⟩
  · rw [hlast, e1]
  · rw [hlast, e2]
  · rw [hlast, e3]
  · rw [hlast, e3]

end

namespace Example
open Section5
variable {V : Type}

/-! ## The world of random numbers -/

theorem drawN_unif (n : ℕ) (w : Numbers V) : drawN Numbers.gen.unif n w = ((List.range n).map fun i => w.unifs (w.i + i), { w with i := w.i + n }) := by
  induction n generalizing w with
  | zero => rfl
  | succ n ih =>
    rw [drawN]
    simp only [Numbers.gen] at ih ⊢
    rw [ih]
    simp only [List.range_succ_eq_map, List.map_cons, List.map_map, Nat.add_zero, Nat.add_assoc, Nat.add_comm 1]
    rfl

theorem drawN_gauss (n : ℕ) (w : Numbers V) : drawN Numbers.gen.gauss n w = ((List.range n).map fun i => w.normals (w.j + i), { w with j := w.j + n }) := by
  induction n generalizing w with
  | zero => rfl
  | succ n ih =>
    rw [drawN]
    simp only [Numbers.gen] at ih ⊢
    rw [ih]
    simp only [List.range_succ_eq_map, List.map_cons, List.map_map, Nat.add_zero, Nat.add_assoc, Nat.add_comm 1]
    rfl

/-- the dataset of a block -/
theorem generate_back {p beta alpha : ℝ} (hp : 0 ≤ p ∧ p ≤ 1) (ha : 0 ≤ 1 / 2 + alpha ∧ 1 / 2 + alpha ≤ 1) {S : SCM String ℝ (Numbers V)}
    (hS : backDoorScm Numbers.gen p beta alpha = .ok S) (m : ℕ) (w : Numbers V) :
    generate S m w = (.ok (Obs.dataset 1 ((List.range m).map fun i => backUnit p beta alpha (w.unifs (w.i + i), w.unifs (w.i + m + i), w.normals (w.j + i)))),
      { w with i := w.i + m + m, j := w.j + m }) := by
  obtain ⟨S', hS', h⟩ := C65_backdoor_sampler (Numbers.gen (V := V)) p beta alpha hp ha
  obtain rfl := Except.ok.inj (hS'.symm.trans hS)
  obtain ⟨us, vs, es, w1, w2, w3, e1, e2, e3, e4⟩ := h m w
  rw [drawN_unif] at e1
  obtain ⟨rfl, rfl⟩ := Prod.mk.inj e1
  rw [drawN_unif] at e2
  obtain ⟨rfl, rfl⟩ := Prod.mk.inj e2
  rw [drawN_gauss] at e3
  obtain ⟨rfl, rfl⟩ := Prod.mk.inj e3
  unfold generate
  rw [e4]
  simp only [Prod.mk.injEq, Except.ok.injEq, and_true]
  unfold toData Obs.dataset backDoorData
  simp only [Cpds.flatten, List.map_map]
  have key : ∀ {z z' : List (List (Cell ℝ))} {x x' y y' : List (Cell ℝ)}, z = z' → x = x' → y = y' →
      ExpData.new (some (.d2 1 z)) (some x) (some y) = ExpData.new (some (.d2 1 z')) (some x') (some y') := by
    rintro _ _ _ _ _ _ rfl rfl rfl
    rfl
  apply key
  · apply List.ext_getElem <;> simp [backUnit]
  · apply List.ext_getElem <;> simp [backUnit]
  · apply List.ext_getElem <;> simp [backUnit]

/-! ## The parameters -/

theorem backDoor_start {a b c : ℝ} (u g : ℕ → ℝ) (v0 : V) : backDoor Numbers.gen (Numbers.start [a, b, c] u g v0) =
    ((backDoorScm Numbers.gen (1 / 5 + 3 / 5 * a) (10 * (-(3 / 10) + 3 / 5 * b)) (-(3 / 10) + 3 / 5 * c)).map fun S =>
      ⟨S, backDoorStats (1 / 5 + 3 / 5 * a) (10 * (-(3 / 10) + 3 / 5 * b)) (-(3 / 10) + 3 / 5 * c), 10 * (-(3 / 10) + 3 / 5 * b), -(3 / 10) + 3 / 5 * c⟩,
      { Numbers.start [a, b, c] u g v0 with i := 3 }) := by
  have e1 : (4 / 5 - 1 / 5 : ℝ) = 3 / 5 := by norm_num
  have e2 : (3 / 10 - -(3 / 10) : ℝ) = 3 / 5 := by norm_num
  unfold backDoor uniform Numbers.gen Numbers.start
  simp only [followedBy, List.getD_cons_zero, List.getD_cons_succ, e1, e2]

theorem valid_of_draws {a c : ℝ} (ha : a ∈ Set.Ico (0 : ℝ) 1) (hc : c ∈ Set.Ico (0 : ℝ) 1) : Valid (1 / 5 + 3 / 5 * a) (-(3 / 10) + 3 / 5 * c) := by
  obtain ⟨a0, a1⟩ := ha
  obtain ⟨c0, c1⟩ := hc
  refine ⟨⟨?_, ?_⟩, ?_, ?_⟩ <;> linarith

/-- the world when round `n` begins -/
def worldAt {a b c : ℝ} (rng : Verif.Rng V ℝ) (m : ℕ) (u g : ℕ → ℝ) (v0 : V) (n : ℕ) : Numbers V :=
  ⟨followedBy [a, b, c] u, g, 3 + n * (m + m), n * m, Bandit.seedAt rng m v0 n⟩

open Arm in
theorem recovers_of_consistent {Ω E : Type} [MeasurableSpace Ω] {P : Measure Ω} {U G : ℕ → Ω → ℝ} {rng : Verif.Rng V ℝ} {cfg : SSConfig (Cell ℝ) ℝ} {ops : EtaOps E (Cell ℝ) ℝ}
    {m : ℕ} (hm : 2 ≤ m) {δ : ℝ} {s0 : ArmState E (Cell ℝ) ℝ} {θ v p beta alpha a b c : ℝ} (hp : 0 ≤ p ∧ p ≤ 1) (ha : 0 ≤ 1 / 2 + alpha ∧ 1 / 2 + alpha ≤ 1)
    (ht : cfg.transform = ExpData.identityFn) {S : SCM String ℝ (Numbers V)} (hS : backDoorScm Numbers.gen p beta alpha = .ok S) (cost : Fl ℝ) (v0 : V)
    (h : Arm.Consistent P 1 cfg ops rng (fun k ω => backUnit p beta alpha (numbersOf U G m k ω)) m δ s0 θ v) :
    ∀ᵐ ω ∂P, Recovers (ssArmOps cfg ops realLib (Numbers.rng rng) cost) (fun s => s.ate) (generate S) m (.fin δ)
      (s0, { Numbers.start [a, b, c] (fun i => U i ω) (fun i => G i ω) v0 with i := 3 }) θ v := by
  filter_upwards [h fun n => Bandit.seedAt rng m v0 n] with ω hω
  obtain ⟨s, ci, rfl, hs, ⟨f, q, h1, h2, h3⟩, l, r, h4, h5, h6⟩ := hω
  have hm0 : 0 < m := by omega
  have hround : ∀ n, TestUtils.Round (ssArmOps cfg ops realLib (Numbers.rng rng) cost) (generate S) m (.fin δ)
      (s n, worldAt (a := a) (b := b) (c := c) rng m (fun i => U i ω) (fun i => G i ω) v0 n)
      (s (n + 1), worldAt (a := a) (b := b) (c := c) rng m (fun i => U i ω) (fun i => G i ω) v0 (n + 1)) := by
    intro n
    refine ⟨_, _, ci n, generate_back hp ha hS m _, ?_⟩
    show ssUpdate _ _ _ _ _ _ _ = _
    have hd : (List.range m).map (fun i => backUnit p beta alpha
          ((worldAt (a := a) (b := b) (c := c) rng m (fun i => U i ω) (fun i => G i ω) v0 n).unifs ((worldAt (a := a) (b := b) (c := c) rng m (fun i => U i ω) (fun i => G i ω) v0 n).i + i),
            (worldAt (a := a) (b := b) (c := c) rng m (fun i => U i ω) (fun i => G i ω) v0 n).unifs ((worldAt (a := a) (b := b) (c := c) rng m (fun i => U i ω) (fun i => G i ω) v0 n).i + m + i),
            (worldAt (a := a) (b := b) (c := c) rng m (fun i => U i ω) (fun i => G i ω) v0 n).normals ((worldAt (a := a) (b := b) (c := c) rng m (fun i => U i ω) (fun i => G i ω) v0 n).j + i))) =
        (List.range m).map fun i => backUnit p beta alpha (numbersOf U G m (blockStart (fun _ => m) n + i) ω) := by
      refine List.map_congr_left fun i hi => ?_
      have hi' := List.mem_range.1 hi
      have hb : blockStart (fun _ => m) n = n * m := by simp [blockStart]
      obtain ⟨d1, d2⟩ := div_pos' (a := n) hm0 hi'
      have f1 : followedBy [a, b, c] (fun i => U i ω) (3 + n * (m + m) + i) = U (firstPos m (n * m + i)) ω := by
        have : firstPos m (n * m + i) = 3 + n * (m + m) + i - 3 := by
          rw [firstPos, d1, d2, Nat.mul_comm 2 n, Nat.mul_assoc, Nat.two_mul]
          omega
        rw [this, followedBy, List.getD_eq_default _ _ (by simp; omega)]
        rfl
      have f2 : followedBy [a, b, c] (fun i => U i ω) (3 + n * (m + m) + m + i) = U (secondPos m (n * m + i)) ω := by
        have : secondPos m (n * m + i) = 3 + n * (m + m) + m + i - 3 := by
          rw [secondPos, d1, d2, Nat.add_mul, Nat.mul_comm 2 n, Nat.mul_assoc, Nat.two_mul]
          omega
        rw [this, followedBy, List.getD_eq_default _ _ (by simp; omega)]
        rfl
      rw [hb]
      unfold numbersOf
      rw [← f1, ← f2]
      rfl
    rw [hd, stream_step hs n (by rw [ht]; rfl) (Numbers.rng rng) _ rfl]
    simp only [worldAt, Numbers.rng, Prod.mk.injEq, true_and, Numbers.mk.injEq]
    refine ⟨?_, ?_, ?_⟩
    · rw [Nat.add_mul]; omega
    · rw [Nat.add_mul]; omega
    · exact (Bandit.seedAt_succ m v0 n).symm
  have := recovers_of_rounds (ops := ssArmOps cfg ops realLib (Numbers.rng rng) cost) (ate := fun s => s.ate) (by omega) hround (a := f) (q := q) (l := fun n => l (n - 1))
    (r := fun n => r (n - 1)) (θ := θ) (v := v) ?_ h2 h3 (h5.comp (tendsto_sub_atTop_nat 1)) (h6.comp (tendsto_sub_atTop_nat 1))
  · have e : worldAt (a := a) (b := b) (c := c) rng m (fun i => U i ω) (fun i => G i ω) v0 0 =
        { Numbers.start [a, b, c] (fun i => U i ω) (fun i => G i ω) v0 with i := 3 } := by
      simp [worldAt, Numbers.start, Bandit.seedAt]
    rw [e] at this
    exact this
  · have h4' := (tendsto_sub_atTop_nat 1).eventually h4
    filter_upwards [h1, h4', eventually_ge_atTop 1] with n e1 e2 hn
    refine ⟨e1.1, e1.2, ?_⟩
    obtain ⟨k, rfl⟩ : ∃ k, n = k + 1 := ⟨n - 1, by omega⟩
    obtain ⟨d, w', -, hup⟩ := hs.step k
    have := (update_varEst hup).1
    show (s (k + 1)).ci = _
    rw [this]
    simp only [Nat.add_sub_cancel] at e2 ⊢
    rw [e2]

end Example
end Verif
