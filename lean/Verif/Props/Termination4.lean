import Verif.Props.Termination3
import Verif.Lemmas.RunInv
import Verif.Lemmas.SafeArm

/-!
# Property C93: examples of runs over sample-splitting arms

Two CHI2 arms: the scores of arm 1 are independent standard normal numbers, those of arm 0 are zero.
A "response" is a sequence of numbers; the score of the `i`-th evaluated unit is the `i`-th number of its response.
-/

set_option linter.unusedSectionVars false
set_option linter.unusedSimpArgs false

namespace Verif
open MeasureTheory ProbabilityTheory
namespace Arm

/-- score number `i` is entry `i` of the `i`-th response -/
def diag (l : List (ℕ → ℝ)) : List ℝ := l.mapIdx fun i x => x i

theorem diag_replicate (n : ℕ) (ω : ℕ → ℝ) : diag (List.replicate n ω) = sample coord n ω := by
  apply List.ext_getElem <;> simp [diag, sample, coord]

theorem pvar_zero (n : ℕ) : pvar (List.replicate n 0) = 0 := by
  unfold pvar pmean
  simp

theorem pvar_ne {n : ℕ} (hn : 2 ≤ n) {ω : ℕ → ℝ} (h : ω 0 ≠ ω 1) : 0 < pvar (sample coord n ω) := by
  refine lt_of_le_of_ne (pvar_nonneg _) fun h0 => h ?_
  rw [pvar_sample, eq_comm, div_eq_zero_iff] at h0
  rcases h0 with h0 | h0
  · rw [Finset.sum_eq_zero_iff_of_nonneg (fun _ _ => sq_nonneg _)] at h0
    have a := h0 0 (by simp; omega)
    have b := h0 1 (by simp; omega)
    simp only [ne_eq, OfNat.ofNat_ne_zero, not_false_eq_true, pow_eq_zero_iff, sub_eq_zero, coord] at a b
    rw [a, b]
  · have : (n : ℝ) ≠ 0 := by positivity
    exact absurd h0 this

/-- the scores of the two arms -/
def views (a : ℕ) (l : List (ℕ → ℝ)) : List ℝ := if a = 0 then List.replicate l.length 0 else diag l

theorem views_length (a : ℕ) (l : List (ℕ → ℝ)) : (views a l).length = l.length := by
  unfold views; split <;> simp [diag]

/-- a CHI2 arm -/
def chiCfg : SSConfig (ℕ → ℝ) ℝ where
  transform := .ok
  alg := .chi2
  stable := true
  subG := .fin 1
  etaSubG := .fin 1
  tauBound := .fin 1
  burnIn := .fin 2
  rho := .fin 1

/-- bounds and estimate of an arm with the scores `xs` -/
def Shows (s : ArmState Unit (ℕ → ℝ) ℝ) (xs : List ℝ) : Prop :=
  ∃ m : ℕ, 0 < m ∧ xs.length = m + 1 ∧
    s.ci = (some (.fin (pvar xs * m / chiQ m (1 - 1 / 10 / 2))), some (.fin (pvar xs * m / chiQ m (1 / 10 / 2)))) ∧ s.varEst = some (.fin (pvar xs))

theorem chi_update {W : Type} {w : W} (a : ℕ) (ys xs : List (ℕ → ℝ)) (hne : 2 ≤ (ys ++ xs).length) (s : ArmState Unit (ℕ → ℝ) ℝ) (hs : Fed ys s) :
    ∃ r s', ssUpdate chiCfg (viewEta (views a)) realLib stillRng (pairs xs) (.fin (1 / 10)) (s, w) = (.ok r, s', w) ∧
      s'.numPulled = s.numPulled + 1 ∧ Fed (ys ++ xs) s' ∧ EvaluatedOn (viewEta (views a)) s' (views a (ys ++ xs)) ∧ Shows s' (views a (ys ++ xs)) := by
  obtain ⟨lo, hi, s', h1, h2, h3, h4, h5⟩ := view_update (w := w) (views_length a) chiCfg rfl rfl (1 / 10) (by norm_num) (by norm_num) ys xs
    (by rintro h; rw [h] at hne; simp at hne) s hs ⟨_, _, .chi2 rfl⟩
  obtain ⟨-, -, -, e1, e2⟩ := chi2_evaluated rfl (viewEta_repeatable _) h1 h4
  have hl : (views a (ys ++ xs)).length = (ys ++ xs).length - 1 + 1 := by rw [views_length]; omega
  obtain ⟨f1, f2⟩ := e2 ((ys ++ xs).length - 1) (by omega) hl
  exact ⟨_, s', h1, h2, h3, h4, _, by omega, hl, by rw [h5, f1, f2], e1⟩

end Arm

namespace Bandit
open Arm

/-- a world with a sequence of numbers; all units have it as response -/
def streamEnv : BanditEnv (ℕ → ℝ) (ℕ → ℝ) where
  generate := fun _ ω => (.ok (pairs [ω, ω]), ω)
  choice := fun _ h ω => (⟨0, h⟩, ω)
  choice2 := fun _ h ω => (⟨(⟨0, by omega⟩, ⟨1, by omega⟩), by simp⟩, ω)

noncomputable def streamCfg : BanditCfg ℕ ℝ := ⟨[0, 1], .fin (1 / 5), .fin 0, some (.fin (9 / 10)), some .pinf, 4⟩

theorem stream_level : level streamCfg = .fin (1 / 10) := by
  simp [level, streamCfg, Fl.div]; norm_num

noncomputable def streamOps : ArmOps (ℕ × ArmState Unit (ℕ → ℝ) ℝ) (ℕ → ℝ) (ℕ → ℝ) ℝ :=
  ssFamily (fun _ => chiCfg) (fun a => viewEta (views a)) stillRng fun _ => 1

theorem streamOps_update {a : ℕ} {s s' : ArmState Unit (ℕ → ℝ) ℝ} {d : ExpData (ℕ → ℝ)} {w w' : ℕ → ℝ} {r : Fl ℝ × Fl ℝ}
    (h : ssUpdate chiCfg (viewEta (views a)) realLib stillRng d (.fin (1 / 10)) (s, w) = (.ok r, s', w')) :
    streamOps.update d (.fin (1 / 10)) ((a, s), w) = (.ok r, (a, s'), w') := by
  show (((ssUpdate chiCfg (viewEta (views a)) realLib stillRng d (.fin (1 / 10)) (s, w))).1,
    (a, ((ssUpdate chiCfg (viewEta (views a)) realLib stillRng d (.fin (1 / 10)) (s, w))).2.1),
    ((ssUpdate chiCfg (viewEta (views a)) realLib stillRng d (.fin (1 / 10)) (s, w))).2.2) = _
  rw [h]

/-- every arm has seen its batches of the sequence `ω` -/
def Streams (ω : ℕ → ℝ) (s : (ℕ → ℕ × ArmState Unit (ℕ → ℝ) ℝ) × (ℕ → ℝ)) : Prop :=
  s.2 = ω ∧ ∀ a, (s.1 a).1 = a ∧ Arm.Fed (List.replicate (2 * (s.1 a).2.numPulled) ω) (s.1 a).2 ∧
    (1 ≤ (s.1 a).2.numPulled → EvaluatedOn (viewEta (views a)) (s.1 a).2 (views a (List.replicate (2 * (s.1 a).2.numPulled) ω)) ∧
      Shows (s.1 a).2 (views a (List.replicate (2 * (s.1 a).2.numPulled) ω)))

theorem streams_kept (ω : ℕ → ℝ) : Kept streamEnv streamOps streamCfg (Streams ω) fun d => d = pairs [ω, ω] where
  generate := by
    rintro ⟨heap, w⟩ ⟨rfl, h⟩
    exact ⟨⟨rfl, h⟩, fun d hd => (Except.ok.inj hd).symm⟩
  update := by
    rintro a d rfl ⟨heap, w⟩ ⟨rfl, h⟩
    refine ⟨?_, fun _ _ => trivial⟩
    obtain ⟨h1, h2, -⟩ := h a
    obtain ⟨r, s', e1, e2, e3, e4, e5⟩ := chi_update (w := w) a (List.replicate (2 * (heap a).2.numPulled) w) [w, w] (by simp) (heap a).2 h2
    have hup := streamOps_update e1
    rw [show List.replicate (2 * (heap a).2.numPulled) w ++ [w, w] = List.replicate (2 * s'.numPulled) w from by
      rw [e2, mul_add, mul_one, List.replicate_add]; rfl] at e3 e4 e5
    unfold updateArm
    rw [stream_level]
    have hh : heap a = (a, (heap a).2) := Prod.ext h1 rfl
    dsimp only
    rw [hh, hup]
    refine ⟨rfl, fun b => ?_⟩
    dsimp only
    by_cases hb : b = a
    · subst hb
      rw [Function.update_self]
      exact ⟨rfl, e3, fun _ => ⟨e4, e5⟩⟩
    · rw [Function.update_of_ne hb]
      exact h b
  choice := fun heap w n h hj => hj
  choice2 := fun heap w n h hj => hj

noncomputable def streamHeap (a : ℕ) : ℕ × ArmState Unit (ℕ → ℝ) ℝ := (a, init ())

theorem streams_start (ω : ℕ → ℝ) : Streams ω (streamHeap, ω) := ⟨rfl, fun a => ⟨rfl, Or.inl ⟨rfl, rfl⟩, fun h => by simp [streamHeap, init] at h⟩⟩

theorem stream_reliable : Reliable streamEnv streamOps streamCfg (fun a s => s.1 = a ∧ s.2.split = none)
    (fun a s => s.1 = a ∧ ∃ ys, 2 ≤ ys.length ∧ Arm.Fed ys s.2 ∧ Shows s.2 (views a ys)) (fun d => ∃ ω, d = pairs [ω, ω]) where
  generate := fun w => ⟨_, _, rfl, w, rfl⟩
  update := by
    rintro a - d ⟨j, s⟩ w ⟨ω, rfl⟩ hs
    have hj : j = a := by rcases hs with h | h <;> exact h.1
    subst hj
    obtain ⟨ys, hys⟩ : ∃ ys, Arm.Fed ys s := by
      rcases hs with ⟨-, h⟩ | ⟨-, ys, -, h, -⟩
      · exact ⟨[], Or.inl ⟨h, rfl⟩⟩
      · exact ⟨ys, h⟩
    obtain ⟨r, s', e1, -, e3, -, e5⟩ := chi_update (w := w) j ys [ω, ω] (by simp) s hys
    rw [stream_level]
    exact ⟨r, _, _, streamOps_update e1, rfl, _, by simp, e3, e5⟩
  estimates := by
    rintro a - ⟨j, s⟩ ⟨rfl, ys, -, -, m, -, -, h1, h2⟩
    refine ⟨_, _, _, h1, h2, ?_, ?_, ?_⟩ <;> exact fun h => nomatch (show Fl.fin _ = Fl.nan from h)

theorem stream_ready (ω : ℕ → ℝ) (l : List ℕ) : Ready (W := ℕ → ℝ) (fun a (s : ℕ × ArmState Unit (ℕ → ℝ) ℝ) => s.1 = a ∧ s.2.split = none)
    (fun a s => s.1 = a ∧ ∃ ys, 2 ≤ ys.length ∧ Arm.Fed ys s.2 ∧ Shows s.2 (views a ys)) l [] (streamHeap, ω) :=
  fun a _ => ⟨Or.inl ⟨rfl, rfl⟩, fun h => by simp at h⟩

/-- the values of the two arms -/
theorem stream_values {ω : ℕ → ℝ} (hω : ω 0 ≠ ω 1) {s : (ℕ → ℕ × ArmState Unit (ℕ → ℝ) ℝ) × (ℕ → ℝ)} (h : Streams ω s)
    (h0 : 1 ≤ (s.1 0).2.numPulled) (h1 : 1 ≤ (s.1 1).2.numPulled) :
    GenericValues streamOps [0, 1] s.1 ∧ ¬ AllTie streamOps [0, 1] s.1 := by
  obtain ⟨-, h⟩ := h
  obtain ⟨-, -, g0⟩ := h 0
  obtain ⟨-, -, g1⟩ := h 1
  obtain ⟨-, m0, p0, q0, ci0, v0⟩ := g0 h0
  obtain ⟨-, m1, p1, q1, ci1, v1⟩ := g1 h1
  have z0 : pvar (views 0 (List.replicate (2 * (s.1 0).2.numPulled) ω)) = 0 := by
    unfold views
    rw [if_pos rfl, pvar_zero]
  have z1 : 0 < pvar (views 1 (List.replicate (2 * (s.1 1).2.numPulled) ω)) := by
    unfold views
    rw [if_neg one_ne_zero, diag_replicate]
    exact pvar_ne (by omega) hω
  rw [z0, zero_mul, zero_div, zero_div] at ci0
  rw [z0] at v0
  have c1 := chiQ_pos p1 (show (0 : ℝ) < 1 - 1 / 10 / 2 by norm_num) (by norm_num)
  have c2 := chiQ_pos p1 (show (0 : ℝ) < 1 / 10 / 2 by norm_num) (by norm_num)
  have p1' : (0 : ℝ) < m1 := by exact_mod_cast p1
  have d1 := div_pos (mul_pos z1 p1') c1
  have d2 := div_pos (mul_pos z1 p1') c2
  have val : ∀ a, (streamOps.ci (s.1 a)) = (s.1 a).2.ci ∧ streamOps.varEst (s.1 a) = (s.1 a).2.varEst ∧ streamOps.cost (s.1 a) = .fin 1 :=
    fun a => ⟨rfl, rfl, rfl⟩
  set l := pvar (views 1 (List.replicate (2 * (s.1 1).2.numPulled) ω)) * m1 / chiQ m1 (1 - 1 / 10 / 2)
  set u := pvar (views 1 (List.replicate (2 * (s.1 1).2.numPulled) ω)) * m1 / chiQ m1 (1 / 10 / 2)
  set v := pvar (views 1 (List.replicate (2 * (s.1 1).2.numPulled) ω))
  constructor
  · refine ⟨fun a => if a = 0 then 0 else l, fun a => if a = 0 then 0 else u, fun a => if a = 0 then 0 else v, fun a ha => ?_, fun a ha b hb hab => ?_⟩
    · obtain ⟨e1, e2, e3⟩ := val a
      rw [e1, e2, e3]
      simp only [List.mem_cons, List.not_mem_nil, or_false] at ha
      rcases ha with rfl | rfl
      · rw [ci0, v0]; simp [Fl.mul]
      · rw [ci1, v1]; simp [Fl.mul]
    · simp only [List.mem_cons, List.not_mem_nil, or_false] at ha hb
      rcases ha with rfl | rfl <;> rcases hb with rfl | rfl <;> first | exact absurd rfl hab | simp [d1.ne, d1.ne', d2.ne, d2.ne', z1.ne, z1.ne']
  · intro h
    have := h 0 (by simp) 1 (by simp)
    obtain ⟨-, e2, e3⟩ := val 0
    obtain ⟨-, f2, f3⟩ := val 1
    rw [e2, e3, f2, f3, v0, v1] at this
    simp [Fl.mul] at this
    exact z1.ne this

/-- after the first batch all arms have been updated -/
theorem lucb_pulled {I S W β α : Type} [Field α] [LinearOrder α] [IsStrictOrderedRing α] [DecidableEq I] {env : BanditEnv W β} {ops : ArmOps S W β α}
    {cfg : BanditCfg I α} {all : Option (ExpData β)} (hnd : cfg.arms.Nodup) {K : S → Nat} (hK : Counts ops K) {n : Nat} {start s' : (I → S) × W}
    (hr : lucbRun env ops cfg all n start = (.ok none, s')) : ∀ a ∈ cfg.arms, 1 ≤ K (s'.1 a) := by
  unfold lucbRun at hr
  obtain ⟨d, s1, e1, hr⟩ := Arm.bind_inv hr
  obtain ⟨h1, s2, e2, hr⟩ := Arm.bind_inv hr
  obtain ⟨f1, -⟩ := updateRecord_forEach hnd e2
  have h := Py.loop_none (fun _ s => ∀ a ∈ cfg.arms, 1 ≤ K (s.1 a)) (fun h s h' s' hi hb => by
    obtain ⟨-, -, -, ps, -, -, h2, -⟩ := lucb_step hnd hb
    intro a ha
    rw [Pulls.counts hK h2]
    have := hi a ha
    omega) n _ _ (fun a ha => by
      rw [Pulls.counts hK f1]
      have : 0 < List.count a (List.map (·.arm) (List.map (fun a => (⟨a, d, level cfg⟩ : PullRec I β α)) cfg.arms)) :=
        List.count_pos_iff.mpr (by simpa using ha)
      omega) _ hr
  exact h.choose_spec

theorem stream_follows (ω : ℕ → ℝ) (run : Nat → Py ((ℕ → ℕ × ArmState Unit (ℕ → ℝ) ℝ) × (ℕ → ℝ)) (Option (BanditData ℕ ℝ)))
    (hrun : run ∈ [uniformRun streamEnv streamOps streamCfg none, lucbRun streamEnv streamOps streamCfg none, seRun streamEnv streamOps streamCfg none])
    (a : ℕ) :
    Arm.Follows chiCfg (viewEta (views a)) (1 / 10) (fun s => StateOf run (streamHeap, ω) a (a, s)) fun n =>
      sample (if a = 0 then fun _ _ => 0 else coord) n ω := by
  refine ⟨⟨fun _ => 0, fun k => 2 * k, tendsto_const_nhds, fun k => by dsimp only; omega, ?_⟩, fun h => by simp [chiCfg] at h⟩
  rintro s ⟨n, s', h1, h2⟩ hs
  have hj := (streams_kept ω).run run hrun n (streams_start ω)
  rw [h1] at hj
  obtain ⟨-, -, h3⟩ := hj.2 a
  simp only [h2] at h3
  refine ⟨_, (h3 hs).1, ?_⟩
  have : views a (List.replicate (2 * s.numPulled) ω) = sample (if a = 0 then fun _ _ => 0 else coord) (2 * s.numPulled) ω := by
    unfold views
    split
    · simp [sample]
    · rw [diag_replicate]
  rw [this]
  exact close_of_sup 4 le_rfl rfl fun i x y hx hy => by rw [hx] at hy; simp [Option.some.inj hy]

/-! The normal distribution. -/

theorem var_normal : Var[coord 0; draws (gaussianReal 0 1)] = 1 := by
  have h := variance_id_gaussianReal (μ := 0) (v := 1)
  rw [← map_coord (μ := gaussianReal 0 1) 0, variance_map aemeasurable_id (measurable_coord 0).aemeasurable] at h
  simpa using h

theorem memLp_normal : MemLp (coord 0) 4 (draws (gaussianReal 0 1)) := by
  have h := memLp_id_gaussianReal (μ := 0) (v := 1) 4
  rw [← map_coord (μ := gaussianReal 0 1) 0, memLp_map_measure_iff (by fun_prop) (measurable_coord 0).aemeasurable] at h
  exact_mod_cast h

theorem normal_distinct : ∀ᵐ ω ∂draws (gaussianReal 0 1), ω 0 ≠ ω 1 := by
  have hi : IndepFun (coord 0) (coord 1) (draws (gaussianReal 0 1)) := iid_coord.indep.indepFun zero_ne_one
  have h := (indepFun_iff_map_prod_eq_prod_map_map (measurable_coord 0).aemeasurable (measurable_coord 1).aemeasurable).mp hi
  rw [map_coord, map_coord] at h
  have hd : MeasurableSet {p : ℝ × ℝ | p.1 ≠ p.2} := (measurableSet_eq_fun measurable_fst measurable_snd).compl
  have h2 : ∀ᵐ p ∂((gaussianReal 0 1).prod (gaussianReal 0 1)), p.1 ≠ p.2 := by
    rw [Measure.ae_prod_iff_ae_ae hd]
    exact Filter.Eventually.of_forall fun x => by
      have := nullSingletonClass_gaussianReal (μ := 0) one_ne_zero
      rw [ae_iff]
      simp
  rw [← h, ae_map_iff ((measurable_coord 0).prodMk (measurable_coord 1)).aemeasurable hd] at h2
  exact h2

theorem stream_iid (a : ℕ) : Iid (draws (gaussianReal 0 1)) (if a = 0 then fun _ _ => 0 else coord) := by
  split
  · exact ⟨iid_coord.indep.comp (fun _ _ => (0 : ℝ)) fun _ => measurable_const, fun i => IdentDistrib.refl aemeasurable_const⟩
  · exact iid_coord

theorem stream_memLp (a : ℕ) : MemLp ((if a = 0 then fun _ _ => 0 else coord) 0) 4 (draws (gaussianReal 0 1)) := by
  split
  · exact memLp_const _
  · exact memLp_normal

theorem stream_var (a : ℕ) : 1 * Var[(if a = 0 then fun _ _ => 0 else coord) 0; draws (gaussianReal 0 1)] = if a = 0 then 0 else 1 := by
  split
  · simp [variance_eq_integral aemeasurable_const]
  · rw [var_normal, one_mul]

theorem stream_best : BestBy streamCfg.arms (fun a => 1 * Var[(if a = 0 then fun _ _ => 0 else coord) 0; draws (gaussianReal 0 1)]) 1 0 := by
  refine ⟨by simp [streamCfg], fun a ha h0 => ?_⟩
  dsimp only
  rw [stream_var, stream_var]
  simp [h0]

/-- non-vacuity of `C93_uniform_consistent` -/
example : ∀ᵐ ω ∂draws (gaussianReal 0 1), Ends (uniformRun streamEnv streamOps streamCfg none) (streamHeap, ω) := by
  refine C93_uniform_consistent streamEnv (fun _ => chiCfg) (fun a => viewEta (views a)) (fun a => viewEta_repeatable _) stillRng (fun _ => 1)
    streamCfg (by simp [streamCfg]) (τ := 0) stream_level rfl le_rfl none streamHeap (fun a => ⟨rfl, rfl⟩) id
    (fun a => if a = 0 then fun _ _ => 0 else coord) (fun a _ => stream_iid a) (fun a _ => stream_memLp a) ?_ ?_ (b := 0) (gap := 1) stream_best one_pos
  · refine Filter.Eventually.of_forall fun ω n e s' h => ?_
    obtain ⟨r, s'', h1, -⟩ := (post_uniformRun (X := fun _ _ => False) stream_reliable (by simp [streamCfg]) (L := .pinf) rfl n).returns (stream_ready ω _)
    cases h1.symm.trans h
  · exact Filter.Eventually.of_forall fun ω a ha => stream_follows ω (uniformRun streamEnv streamOps streamCfg none) (by simp) a

/-- non-vacuity of `C93_successive_elimination_consistent_partial` -/
example : ∀ᵐ ω ∂draws (gaussianReal 0 1), Ends (seRun streamEnv streamOps streamCfg none) (streamHeap, ω) := by
  refine C93_successive_elimination_consistent_partial streamEnv (fun _ => chiCfg) (fun a => viewEta (views a)) (fun a => viewEta_repeatable _) stillRng (fun _ => 1)
    streamCfg (by simp [streamCfg]) stream_level none streamHeap (fun a => ⟨rfl, rfl⟩) id
    (fun a => if a = 0 then fun _ _ => 0 else coord) (fun a _ => stream_iid a) (fun a _ => stream_memLp a) ?_ ?_ ?_
  · refine Filter.Eventually.of_forall fun ω n e s' h => ?_
    obtain ⟨r, s'', h1, -⟩ := (post_seRun (X := fun _ _ => False) stream_reliable (L := .pinf) rfl rfl n).returns (stream_ready ω _)
    cases h1.symm.trans h
  · exact Filter.Eventually.of_forall fun ω a ha => stream_follows ω (seRun streamEnv streamOps streamCfg none) (by simp) a
  · intro a ha b hb hab
    simp only [streamCfg, List.mem_cons, List.not_mem_nil, or_false] at ha hb
    rw [stream_var, stream_var]
    rcases ha with rfl | rfl <;> rcases hb with rfl | rfl <;> simp at hab ⊢

/-- non-vacuity of `C93_lucb_consistent_partial` -/
example : ∀ᵐ ω ∂draws (gaussianReal 0 1), Ends (lucbRun streamEnv streamOps streamCfg none) (streamHeap, ω) := by
  refine C93_lucb_consistent_partial streamEnv (fun _ => chiCfg) (fun a => viewEta (views a)) (fun a => viewEta_repeatable _) stillRng (fun _ => 1)
    streamCfg (by simp [streamCfg]) (τ := 0) stream_level rfl none streamHeap (fun a => ⟨rfl, rfl⟩) id
    (fun a => if a = 0 then fun _ _ => 0 else coord) (fun a _ => stream_iid a) (fun a _ => stream_memLp a) ?_ ?_ ?_ ?_
  · filter_upwards [normal_distinct] with ω hω n e s' h
    rcases post_lucbRun stream_reliable (by simp [streamCfg]) (L := .pinf) rfl n _ (stream_ready ω _) with ⟨r, s'', h1, -⟩ | ⟨e', s'', h1, -, hr, ht⟩
    · cases h1.symm.trans h
    · have hj := (streams_kept ω).run _ (show lucbRun streamEnv streamOps streamCfg none ∈ _ by simp) n (streams_start ω)
      rw [h1] at hj
      have hp : ∀ a ∈ [0, 1], 1 ≤ (s''.1 a).2.numPulled := by
        intro a ha
        by_contra h0
        obtain ⟨-, ys, hy, hf, -⟩ := (hr a ha).2 ha
        obtain ⟨-, hf', -⟩ := hj.2 a
        rw [show (s''.1 a).2.numPulled = 0 by omega] at hf'
        have hys : ys ≠ [] := by rintro rfl; simp at hy
        rcases hf with ⟨-, h⟩ | hf
        · exact hys h
        · rcases hf' with ⟨h, -⟩ | hf'
          · rw [h] at hf; cases hf
          · rw [hf'] at hf
            simp [half, ExpData.new] at hf
            exact hys hf.1
      exact (stream_values hω hj (hp 0 (by simp)) (hp 1 (by simp))).2 ht
  · exact Filter.Eventually.of_forall fun ω a ha => stream_follows ω (lucbRun streamEnv streamOps streamCfg none) (by simp) a
  · filter_upwards [normal_distinct] with ω hω n s' hn h
    have hj := (streams_kept ω).run _ (show lucbRun streamEnv streamOps streamCfg none ∈ _ by simp) n (streams_start ω)
    rw [show lucbRun streamEnv streamOps streamCfg none n (streamHeap, ω) = _ from h] at hj
    have hp := lucb_pulled (by simp [streamCfg]) ss_counts h
    exact (stream_values hω hj (hp 0 (by simp [streamCfg])) (hp 1 (by simp [streamCfg]))).1
  · intro a ha b hb hab
    simp only [streamCfg, List.mem_cons, List.not_mem_nil, or_false] at ha hb
    rw [stream_var, stream_var]
    rcases ha with rfl | rfl <;> rcases hb with rfl | rfl <;> simp at hab ⊢

/-! ## Ties -/

/-- arms 0 and 1 with the value 1 and arm 2 with the value 9; in the world `false` the interval of arm 1 is wrong -/
def tieOps : ArmOps (Nat × Bool) Bool ℚ ℚ where
  update := fun _ _ x => (.ok (.fin 0, .fin 2), (x.1.1, x.2), x.2)
  ci := fun s => if s.1 = 2 then (some (.fin 8), some (.fin 10)) else if s.1 = 1 ∧ s.2 = false then (some (.fin 4), some (.fin 6)) else (some (.fin 0), some (.fin 2))
  varEst := fun s => if s.1 = 2 then some (.fin 9) else if s.1 = 1 ∧ s.2 = false then some (.fin 5) else some (.fin 1)
  cost := fun _ => .fin 1
  numUnits := fun _ => 0
  reset := fun s => s

def tieEnv : BanditEnv Bool ℚ where
  generate := fun _ w => (.ok (ExpData.new none none none), w)
  choice := fun _ h w => (⟨0, h⟩, w)
  choice2 := fun _ h w => (⟨(⟨0, by omega⟩, ⟨1, by omega⟩), by simp⟩, w)

def tieCfg : BanditCfg Nat ℚ := ⟨[0, 1, 2], .fin (1 / 10), .fin 0, some (.fin (9 / 10)), some .pinf, 2⟩

/-- `false` with probability 1/30 -/
noncomputable def tieLaw : Measure Bool := ENNReal.ofReal (29 / 30) • Measure.dirac true + ENNReal.ofReal (1 / 30) • Measure.dirac false

theorem tie_kept : Kept tieEnv tieOps.logged tieCfg (fun s => s.2 = true ∧ ∀ a, (s.1 a).1 = (a, true)) fun _ => True where
  generate := fun _ hs => ⟨hs, fun _ _ => trivial⟩
  update := by
    rintro a d - ⟨heap, w⟩ ⟨rfl, h⟩
    refine ⟨⟨rfl, fun b => ?_⟩, fun _ _ => trivial⟩
    dsimp only at h
    by_cases hb : b = a
    · subst hb
      simp [updateArm, ArmOps.logged, tieOps, h]
    · simp [updateArm, Function.update_of_ne hb, h]
  choice := fun _ _ _ _ h => h
  choice2 := fun _ _ _ _ h => h

theorem tie_check {heap : Nat → (Nat × Bool) × List (ExpData ℚ × Fl ℚ)} (hh : ∀ a, (heap a).1 = (a, true)) :
    checkEnd tieOps.logged tieCfg heap = .ok (false, [0]) := by
  unfold checkEnd
  rw [show collectBounds tieOps.logged tieCfg.arms heap = .ok ([.fin 0, .fin 0, .fin 8], [.fin 2, .fin 2, .fin 10], [.fin 1, .fin 1, .fin 9]) from by
    simp [collectBounds, tieCfg, ArmOps.logged, tieOps, hh, costTimes, bind, Except.bind, pure, Except.pure, Fl.mul]]
  decide +kernel

def pairHeap (a : Nat) : Nat × Bool := (a, true)

/-- in the world `true` the run goes on for ever -/
theorem tie_true (n : Nat) (bd : BanditData Nat ℚ) (s' : (Nat → (Nat × Bool) × List (ExpData ℚ × Fl ℚ)) × Bool) :
    uniformRun tieEnv tieOps.logged tieCfg none n (startHeap pairHeap, true) ≠ (.ok (some bd), s') := by
  intro h
  have hj := tie_kept.run (uniformRun tieEnv tieOps.logged tieCfg none) (by simp) n (s := (startHeap pairHeap, true)) ⟨rfl, fun _ => rfl⟩
  rw [h] at hj
  obtain ⟨rs, L, hend⟩ := uniform_master (by simp [tieCfg]) h
  obtain ⟨-, -, -, -, hL, -, h1 | h1, -⟩ := hend
  · cases hL
    simp [Fl.lt] at h1
  · have := h1.2
    rw [tie_check hj.2] at this
    cases this

/-- non-vacuity of `C93_ties`: the run ends with probability 1/30 -/
example : tieLaw {w | Ends (uniformRun tieEnv tieOps.logged tieCfg none) (startHeap pairHeap, w)} = ENNReal.ofReal (1 / 30) ∧
    tieLaw {w | Ends (uniformRun tieEnv tieOps.logged tieCfg none) (startHeap pairHeap, w)} ≤ ENNReal.ofReal (Rat.castHom ℝ (1 / 10)) := by
  have hset : {w | Ends (uniformRun tieEnv tieOps.logged tieCfg none) (startHeap pairHeap, w)} = {false} := by
    ext w
    cases w with
    | true => simpa [Ends] using fun n bd heap b => tie_true n bd (heap, b)
    | false =>
      simp only [Ends, Set.mem_ofPred_eq, Set.mem_singleton_iff, iff_true]
      have : ((uniformRun tieEnv tieOps.logged tieCfg none 1 (startHeap pairHeap, false)).1.toOption.bind id).isSome = true := by decide +kernel
      rcases h : uniformRun tieEnv tieOps.logged tieCfg none 1 (startHeap pairHeap, false) with ⟨_ | _ | r, s'⟩
      · rw [h] at this; cases this
      · rw [h] at this; cases this
      · exact ⟨1, r, s', h⟩
  have hm : ∀ t : Set Bool, true ∉ t → tieLaw t ≤ ENNReal.ofReal (1 / 30) := by
    intro t ht
    simp only [tieLaw, Measure.coe_add, Measure.coe_smul, Pi.add_apply, Pi.smul_apply, smul_eq_mul]
    rw [Measure.dirac_apply' _ (MeasurableSpace.measurableSet_top), Set.indicator_of_notMem ht, mul_zero, zero_add]
    exact mul_le_of_le_one_right zero_le prob_le_one
  constructor
  · rw [hset]
    simp [tieLaw]
  · refine C93_ties (Rat.castHom ℝ) tieLaw [0, 1, 2] (by decide) (.fin (1 / 10)) (.fin 0) (1 / 10) rfl (some (.fin (9 / 10))) 2 (cfg := tieCfg)
      (by norm_num [construct, Fl.lt, Fl.isInf, tieCfg]) tieEnv tieOps none pairHeap (fun a => if a = 2 then 9 else 1)
      (uniformRun tieEnv tieOps.logged tieCfg none) (by simp) ?_ (a := 0) (b := 1) (by simp) (by simp) (by simp) rfl (by decide +kernel)
    intro n a ha ℓ hℓ
    cases n with
    | zero =>
      refine le_trans (measure_mono_null ?_ (measure_empty (μ := tieLaw))).le zero_le
      rintro w ⟨bd, s', h, -⟩
      cases h
    | succ n =>
      have hend : ∃ r s', uniformRun tieEnv tieOps.logged tieCfg none 1 (startHeap pairHeap, false) = (.ok (some r), s') := by
        have : ((uniformRun tieEnv tieOps.logged tieCfg none 1 (startHeap pairHeap, false)).1.toOption.bind id).isSome = true := by decide +kernel
        rcases h : uniformRun tieEnv tieOps.logged tieCfg none 1 (startHeap pairHeap, false) with ⟨_ | _ | r, s'⟩
        · rw [h] at this; cases this
        · rw [h] at this; cases this
        · exact ⟨r, s', rfl⟩
      obtain ⟨r, s', hend⟩ := hend
      have hmore := ended_more (env := tieEnv) (ops := tieOps.logged) (cfg := tieCfg) (all := none) (uniformRun tieEnv tieOps.logged tieCfg none) (by simp)
        (show 1 ≤ n + 1 by omega) hend
      have h1 : ((((uniformRun tieEnv tieOps.logged tieCfg none 1 (startHeap pairHeap, false)).2.1 a).2.map (·.2)).contains (.fin (1 / 30))) = true := by
        simp only [List.mem_cons, List.not_mem_nil, or_false] at ha
        rcases ha with rfl | rfl | rfl <;> decide +kernel
      rw [List.contains_iff_mem, List.mem_map, hend] at h1
      obtain ⟨e, he, he'⟩ := h1
      have h2 : ℓ = 1 / 30 := by
        have := hℓ false e (by
          rw [show uniformRun tieEnv tieOps.logged tieCfg none (n + 1) (fun a => (pairHeap a, []), false) = _ from hmore]
          exact he)
        rw [he'] at this
        simpa using this.symm
      subst h2
      refine (hm _ ?_).trans (by simp)
      rintro ⟨bd, s', h, -⟩
      exact tie_true _ _ _ h

end Bandit
end Verif
