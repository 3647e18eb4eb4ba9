import Verif.Lemmas.Stream
import Verif.Model.ArmsTest

/-!
# Streams of a finite-sample arm, round by round
-/

set_option linter.unusedSectionVars false
set_option linter.unusedSimpArgs false

namespace Verif
open Arm

/-- a sample of variance zero is constant -/
theorem pvar_eq_zero {xs : List ℝ} (h : pvar xs = 0) : ∀ x ∈ xs, x = pmean xs := by
  intro x hx
  have hne : (xs.length : ℝ) ≠ 0 := by
    have := List.length_pos_of_mem hx
    exact_mod_cast this.ne'
  unfold pvar pmean at h
  rw [List.length_map, div_eq_zero_iff, or_iff_left hne] at h
  have hle := List.single_le_sum (l := xs.map fun x => (x - xs.sum / xs.length) ^ 2) (by
    intro y hy
    obtain ⟨z, -, rfl⟩ := List.mem_map.1 hy
    positivity) ((x - xs.sum / xs.length) ^ 2) (List.mem_map.2 ⟨x, hx, rfl⟩)
  rw [h] at hle
  have := pow_eq_zero_iff (n := 2) (by norm_num) |>.1 (le_antisymm hle (sq_nonneg _))
  unfold pmean
  linarith

namespace ArmsTest

theorem less_fin (x y : ℝ) : lessAt (.fin x) (.fin y) = decide (x < y) := by simp [lessAt, Fl.isNan, Fl.lt]

theorem less_pinf (x : ℝ) : lessAt (.fin x) .pinf = true := by simp [lessAt, Fl.isNan, Fl.lt]

/-- the interval around a variance `v`, if the width is positive -/
theorem less_interval {v : ℝ} {w : Fl ℝ} (hw : w = .pinf ∨ ∃ x, 0 < x ∧ w = .fin x) :
    lessAt (Fl.maxStep ((Fl.fin v).sub w) (.fin 0)) (.fin v) = decide (0 < v) ∧ lessAt (.fin v) ((Fl.fin v).add w) = true := by
  rcases hw with rfl | ⟨x, hx, rfl⟩
  · simp [lessAt, Fl.isNan, Fl.lt, Fl.maxStep, Fl.sub, Fl.neg, Fl.add]
  · constructor
    · simp only [Fl.sub, Fl.neg, Fl.add, Fl.maxStep, Fl.lt, decide_eq_true_eq]
      split
      · rw [less_fin]
      · rename_i h
        rw [less_fin, decide_eq_decide]
        constructor
        · intro; linarith
        · intro; linarith
    · simp only [Fl.add]
      rw [less_fin, decide_eq_true_eq]
      linarith

end ArmsTest

namespace Arm
open ArmsTest
variable {E W : Type} {k : ℕ} {x0 x1 : Cell ℝ}

/-- What a round leaves behind: the nuisance parameter `e` is fitted on the first fold; if that is not possible, the estimates are infinite; otherwise the
scores on the second fold are evaluated. -/
def RoundOf (ops : EtaOps E (Cell ℝ) ℝ) (e0 : E) (train test : ExpData (Cell ℝ)) (st : ArmState E (Cell ℝ) ℝ) : Prop :=
  ∃ e1, ops.fit e0 train = (.ok (), e1) ∧
    ((ops.hasEnough e1 = .ok false ∧ st.eta = e1 ∧ st.varEst = some .pinf ∧ st.ci = (some (.fin 0), some .pinf)) ∨
      (ops.hasEnough e1 = .ok true ∧ ∃ xs e2 e3, ops.score e1 test = (.ok (xs.map Fl.fin), e2) ∧ ops.score e2 test = (.ok (xs.map Fl.fin), e3) ∧ st.eta = e3 ∧ xs ≠ [] ∧
        st.varEst = some (.fin (pvar xs)) ∧
        ∃ lo hi, st.ci = (some lo, some hi) ∧ lessAt lo (.fin (pvar xs)) = decide (0 < pvar xs) ∧ lessAt (.fin (pvar xs)) hi = true))

/-- A finite-sample arm with positive widths. -/
structure FsConfig (cfg : SSConfig (Cell ℝ) ℝ) (δ g h τ m r : ℝ) : Prop where
  alg : cfg.alg = .finiteSample
  subG : cfg.subG = .fin g
  etaSubG : cfg.etaSubG = .fin h
  tau : cfg.tauBound = .fin τ
  burn : cfg.burnIn = .fin m
  rho : cfg.rho = .fin r
  g0 : 0 < g
  h0 : 0 < h
  t0 : 0 < τ
  m1 : 1 < m
  r0 : 0 < r
  d0 : 0 < δ
  d1 : δ < 1
  inner : ∀ n : ℕ, m ≤ n → 0 < fsInner g m δ n

theorem fs_estimate {Inv : E → Prop} {ops : EtaOps E (Cell ℝ) ℝ} (he : SafeEta ops (GoodData k x0 x1 1) Inv) (hrep : ScoreRepeatable ops) {cfg : SSConfig (Cell ℝ) ℝ} {δ g h τ m r : ℝ}
    (hc : FsConfig cfg δ g h τ m r) {s : ArmState E (Cell ℝ) ℝ} {f0 f1 : ExpData (Cell ℝ)} (hs : s.split = some [f0, f1]) (hinv : Inv s.eta) (g0 : GoodData k x0 x1 1 f0)
    (g1 : GoodData k x0 x1 1 f1) (w : W) :
    ∃ ci s', ssEstimate cfg ops realLib (.fin δ) (s, w) = (.ok ci, s', w) ∧ RoundOf ops s.eta f0 f1 s' ∧ Inv s'.eta ∧ s'.split = s.split := by
  obtain ⟨e1, hf, i1, wd1⟩ := he.fit s.eta f0 hinv g0
  obtain ⟨b, hbo⟩ := he.enough e1
  cases b with
  | false =>
    have := estimate_fwd (W := W) (lib := realLib) (cfg := cfg) (delta := .fin δ) (s := s) (Estimated.few [f0, f1] f0 e1 hs rfl hf hbo) w
    exact ⟨_, _, this, ⟨e1, hf, Or.inl ⟨hbo, rfl, rfl, rfl⟩⟩, i1, rfl⟩
  | true =>
    obtain ⟨xs, e2, sc1, hx, i2, b2, wd2⟩ := he.score e1 f1 i1 g1 hbo
    obtain ⟨ys, e3, sc2, hy, i3, b3, wd3⟩ := he.score e2 f1 i2 g1 b2
    have wd := wd3 (wd2 wd1)
    have hxy : ys = xs := List.map_injective_iff.mpr (fun a b h => by injection h) (score_again hrep sc1 sc2)
    subst hxy
    have hv : Fl.mean (sqDev (ys.map Fl.fin) (Fl.mean (ys.map Fl.fin))) = .fin (pvar ys) := by
      rw [mean_fin ys hx, sqDev_fin, mean_fin _ (by simpa using hy)]
      rfl
    have hn : 0 < f1.nUnits := by
      obtain ⟨us, rfl, h1, -⟩ := g1
      rw [Obs.dataset_nUnits]; exact h1
    have done : ∀ lo hi, IntervalOf cfg ops realLib (.fin δ) s.numPulled f1 e3 (.fin (pvar ys)) (.fin (pmean ys)) lo hi e3 → lessAt lo (.fin (pvar ys)) = decide (0 < pvar ys) →
        lessAt (.fin (pvar ys)) hi = true →
        ∃ ci s', ssEstimate cfg ops realLib (.fin δ) (s, w) = (.ok ci, s', w) ∧ RoundOf ops s.eta f0 f1 s' ∧ Inv s'.eta ∧ s'.split = s.split := by
      intro lo hi hi' h1 h2
      have := estimate_fwd (W := W) (lib := realLib) (cfg := cfg) (delta := .fin δ) (s := s)
        (Estimated.enough [f0, f1] f0 e1 f1 (ys.map Fl.fin) e2 (ys.map Fl.fin) e3 lo hi e3 hs rfl hf hbo rfl sc1 sc2 (by rw [hv]; rfl)
          (by rw [hv, mean_fin ys hx]; exact hi')) w
      exact ⟨_, _, this, ⟨e1, hf, Or.inr ⟨hbo, ys, e2, e3, sc1, sc2, rfl, hx, congrArg some hv, lo, hi, rfl, h1, h2⟩⟩, i3, rfl⟩
    have d2 : δ / 2 < 1 := by linarith [hc.d1, hc.d0]
    obtain ⟨ew, hw, w1, w2⟩ := wd (δ / 2) h r (by linarith [hc.d0]) d2 hc.h0 hc.r0
    have hle : ∀ x y : ℝ, y < x → (Fl.fin x).le (.fin y) = false := by
      intro x y hxy
      simp only [Fl.le, Fl.lt, Fl.eq, Bool.or_eq_false_iff, decide_eq_false_iff_not]
      exact ⟨not_lt.2 hxy.le, hxy.ne'⟩
    have hcs : ops.csWidth e3 ((Fl.fin δ).div (.fin 2)) cfg.etaSubG cfg.rho = .ok (some ew) := by
      rw [div_fin _ _ two_ne_zero, hc.etaSubG, hc.rho, hw]
    by_cases hbi : (Fl.fin (f1.nUnits : ℝ)).lt cfg.burnIn = true
    · exact done _ _ (.burnIn (some ew) hc.alg (by rw [hc.tau]; exact hle _ _ hc.t0) (by rw [hc.burn]; exact hle _ _ hc.m1) (by rw [hc.subG]; exact hle _ _ hc.g0) hcs hbi)
        (less_fin _ _) (less_pinf _)
    · rw [Bool.not_eq_true] at hbi
      have hmn : m ≤ (f1.nUnits : ℝ) := by
        rw [hc.burn] at hbi
        simpa [Fl.lt] using hbi
      have hin := hc.inner _ hmn
      have hwid := fsWidth_eq g τ m δ f1.nUnits ew hc.g0 hc.m1 hc.d0 hn
      rw [if_neg (not_lt.2 hin.le)] at hwid
      have key := IntervalOf.finite (cfg := cfg) (ops := ops) (lib := realLib) (delta := .fin δ) (numPulled := s.numPulled) (f1 := f1) (e := e3)
        (v := .fin (pvar ys)) (ate := .fin (pmean ys)) ew hc.alg (by rw [hc.tau]; exact hle _ _ hc.t0) (by rw [hc.burn]; exact hle _ _ hc.m1) (by rw [hc.subG]; exact hle _ _ hc.g0) hcs hbi
      rw [hc.subG, hc.tau, hc.burn, hwid] at key
      have hpos : 0 < fsHalfWidth g τ m δ f1.nUnits := by
        have h1 := hc.t0
        have h2 := Real.sqrt_pos.2 hin
        have h3 : 0 < Real.sqrt (f1.nUnits : ℝ) := Real.sqrt_pos.2 (by exact_mod_cast hn)
        have h4 := Real.sqrt_nonneg (2 * g)
        unfold fsHalfWidth
        positivity
      obtain ⟨l1, l2⟩ := less_interval (v := pvar ys) (w := (Fl.fin (fsHalfWidth g τ m δ f1.nUnits)).add ew.sq) (by
        cases ew with
        | nan => exact absurd rfl w1
        | ninf => exact absurd rfl w2
        | pinf => exact Or.inl rfl
        | fin y => exact Or.inr ⟨_, add_pos_of_pos_of_nonneg hpos (mul_self_nonneg y), rfl⟩)
      exact done _ _ key l1 l2

/-- the stream of a finite-sample arm, round by round -/
theorem stream_fs {Inv : E → Prop} {ops : EtaOps E (Cell ℝ) ℝ} (he : SafeEta ops (GoodData k x0 x1 1) Inv) (hrep : ScoreRepeatable ops) {cfg : SSConfig (Cell ℝ) ℝ} {δ g h τ m r : ℝ}
    (hc : FsConfig cfg δ g h τ m r) (hstable : cfg.stable = true) (rng : Rng W ℝ) {size : ℕ → ℕ} (hsize : ∀ n, 2 ≤ size n) (w : ℕ → W) (u : ℕ → Obs ℝ)
    (ht : ∀ n, ∃ d, cfg.transform d = .ok (Obs.dataset k ((List.range (size n)).map fun i => u (blockStart size n + i))))
    (hu : ∀ i, (u i).z.length = k ∧ ((u i).x = x0 ∨ (u i).x = x1)) (s0 : ArmState E (Cell ℝ) ℝ) (hsp : s0.split = none) (hnp : s0.numPulled = 0) (hinv : Inv s0.eta) :
    ∃ s ci, s 0 = s0 ∧ Streams k cfg ops rng u size (.fin δ) s w ci ∧ ∀ n, Inv (s n).eta ∧
      RoundOf ops (s n).eta (Obs.dataset k ((foldIdx rng size w 0 (n + 1)).map u)) (Obs.dataset k ((foldIdx rng size w 1 (n + 1)).map u)) (s (n + 1)) := by
  have hcov : ∀ i, (u i).z.length = k := fun i => (hu i).1
  have hgood : ∀ f, f < 2 → ∀ n, GoodData k x0 x1 1 (Obs.dataset k ((foldIdx rng size w f (n + 1)).map u)) := by
    intro f hf n
    have := foldIdx_length rng size w (f := f) hf hsize (n + 1)
    refine ⟨_, rfl, by rw [List.length_map]; omega, ?_⟩
    intro v hv
    obtain ⟨i, -, rfl⟩ := List.mem_map.1 hv
    exact hu i
  choose d hd using ht
  let step : ℕ → ArmState E (Cell ℝ) ℝ → ArmState E (Cell ℝ) ℝ := fun n st => (ssUpdate cfg ops realLib rng (d n) (.fin δ) (st, w n)).2.1
  let s : ℕ → ArmState E (Cell ℝ) ℝ := fun n => Nat.rec s0 step n
  let J : ℕ → ArmState E (Cell ℝ) ℝ → Prop := fun n st => Inv st.eta ∧ ((st.split = none ∧ n = 0) ∨
      st.split = some [Obs.dataset k ((foldIdx rng size w 0 n).map u), Obs.dataset k ((foldIdx rng size w 1 n).map u)])
  have key : ∀ n st, J n st → ∃ ci st', ssUpdate cfg ops realLib rng (d n) (.fin δ) (st, w n) = (.ok ci, st', (rng.perm (size n) (w n)).2) ∧ J (n + 1) st' ∧
      RoundOf ops st.eta (Obs.dataset k ((foldIdx rng size w 0 (n + 1)).map u)) (Obs.dataset k ((foldIdx rng size w 1 (n + 1)).map u)) st' := by
    intro n st ⟨hi, hsplit⟩
    have hadd := addData_block (E := E) (w := w) (rng := rng) (size := size) hstable hcov n (hd n) { st with numPulled := st.numPulled + 1, delta := some (.fin δ) } hsplit
    obtain ⟨hup, -, -⟩ := ssUpdate_after cfg ops realLib rng (d n) (.fin δ) ⟨δ, rfl, hc.d0, hc.d1⟩ st (w n) _ _ hadd
    obtain ⟨ci, st', e1, e2, e3, e4⟩ := fs_estimate (W := W) he hrep hc (s := { st with numPulled := st.numPulled + 1, delta := some (.fin δ), split := some [Obs.dataset k ((foldIdx rng size w 0 (n + 1)).map u), Obs.dataset k ((foldIdx rng size w 1 (n + 1)).map u)] })
      rfl hi (hgood 0 (by omega) n) (hgood 1 (by omega) n) (rng.perm (size n) (w n)).2
    exact ⟨ci, st', hup.trans e1, ⟨e3, Or.inr e4⟩, e2⟩
  have inv : ∀ n, J n (s n) := by
    intro n
    induction n with
    | zero => exact ⟨hinv, Or.inl ⟨hsp, rfl⟩⟩
    | succ n ih =>
      obtain ⟨ci, st', h2, h3, -⟩ := key n _ ih
      have : s (n + 1) = st' := by
        show (ssUpdate cfg ops realLib rng (d n) (.fin δ) (s n, w n)).2.1 = st'
        rw [h2]
      rw [this]; exact h3
  choose ci st' h2 h3 h4 using fun n => key n _ (inv n)
  have hst : ∀ n, s (n + 1) = st' n := fun n => by
    show (ssUpdate cfg ops realLib rng (d n) (.fin δ) (s n, w n)).2.1 = st' n
    rw [h2 n]
  refine ⟨s, ci, rfl, ⟨⟨hsp, hnp⟩, hstable, hcov, fun n => ⟨d n, (rng.perm (size n) (w n)).2, hd n, ?_⟩⟩, fun n => ⟨(inv n).1, ?_⟩⟩
  · rw [hst n]; exact h2 n
  · rw [hst n]; exact h4 n

end Arm
end Verif
