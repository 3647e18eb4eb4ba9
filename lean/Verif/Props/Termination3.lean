import Verif.Props.Termination2

/-!
# Property C93, continued: cases and counterexamples
-/

set_option linter.unusedSectionVars false
set_option linter.unusedSimpArgs false

namespace Verif
namespace Bandit

/-- arms with given values after each update; the state is the name of the arm and the number of updates -/
def curveOps (l u v : Nat → Nat → ℚ) : ArmOps (Nat × Nat) Unit ℚ ℚ where
  update := fun _ _ s => (.ok (.fin (l s.1.1 (s.1.2 + 1)), .fin (u s.1.1 (s.1.2 + 1))), (s.1.1, s.1.2 + 1), s.2)
  ci := fun s => (some (.fin (l s.1 s.2)), some (.fin (u s.1 s.2)))
  varEst := fun s => some (.fin (v s.1 s.2))
  cost := fun _ => .fin 1
  numUnits := fun _ => 0
  reset := fun s => (s.1, 0)

/-- three arms and no sample limit -/
def freeCfg (τ : ℚ) : BanditCfg Nat ℚ := ⟨[0, 1, 2], .fin (1 / 10), .fin τ, some (.fin (9 / 10)), some .pinf, 2⟩

theorem curve_counts (l u v : Nat → Nat → ℚ) : Counts (curveOps l u v) fun s => s.2 := by
  intro d δ s w r s' w' h
  simp only [curveOps, Prod.mk.injEq] at h
  obtain ⟨-, rfl, -⟩ := h
  rfl

theorem curve_reliable (l u v : Nat → Nat → ℚ) (τ : ℚ) : Reliable steadyEnv (curveOps l u v) (freeCfg τ) (fun a s => s.1 = a)
    (fun a s => s.1 = a) (fun _ => True) where
  generate := fun w => ⟨_, _, rfl, trivial⟩
  update := by
    rintro a - d ⟨i, k⟩ w - h
    exact ⟨_, _, _, rfl, h.elim id id⟩
  estimates := by
    rintro a - ⟨i, k⟩ h
    refine ⟨.fin (l i k), .fin (u i k), .fin (v i k), ?_, ?_, ?_, ?_, ?_⟩ <;> simp_all [curveOps, Fl.mul]

theorem curve_vals (l u v : Nat → Nat → ℚ) (s : Nat × Nat) :
    ((curveOps l u v).ci s).1.map ((curveOps l u v).cost s).mul = some (.fin (l s.1 s.2)) ∧
    ((curveOps l u v).ci s).2.map ((curveOps l u v).cost s).mul = some (.fin (u s.1 s.2)) ∧
    ((curveOps l u v).varEst s).map ((curveOps l u v).cost s).mul = some (.fin (v s.1 s.2)) := by
  simp [curveOps, Fl.mul]

/-- the names of the arms do not change -/
theorem curve_names (l u v : Nat → Nat → ℚ) (τ : ℚ) (run : Nat → Py ((Nat → Nat × Nat) × Unit) (Option (BanditData Nat ℚ)))
    (hrun : run ∈ [uniformRun steadyEnv (curveOps l u v) (freeCfg τ) none, lucbRun steadyEnv (curveOps l u v) (freeCfg τ) none,
      seRun steadyEnv (curveOps l u v) (freeCfg τ) none]) {n : Nat} {s' : (Nat → Nat × Nat) × Unit}
    (hn : run n (fun a => (a, 0), ()) = (.ok none, s')) (a : Nat) : (s'.1 a).1 = a := by
  refine (since_run (by simp [freeCfg]) (Q := fun a s => s.1 = a) (fun a d s w r s' w' hs h => ?_) (fun a => rfl) run hrun hn a).1
  simp only [curveOps, Prod.mk.injEq] at h
  rw [← h.2.1]; exact hs

theorem curve_settles (l u v : Nat → Nat → ℚ) (τ : ℚ) (run : Nat → Py ((Nat → Nat × Nat) × Unit) (Option (BanditData Nat ℚ)))
    (hrun : run ∈ [uniformRun steadyEnv (curveOps l u v) (freeCfg τ) none, lucbRun steadyEnv (curveOps l u v) (freeCfg τ) none,
      seRun steadyEnv (curveOps l u v) (freeCfg τ) none]) (a : Nat) {x : ℚ}
    (h : ∀ e : ℚ, 0 < e → ∃ M, ∀ k, M ≤ k → |l a k - x| ≤ e ∧ |u a k - x| ≤ e ∧ |v a k - x| ≤ e) :
    Settles (curveOps l u v) (fun s => s.2) run (fun a => (a, 0), ()) a x := by
  intro e he
  obtain ⟨M, hM⟩ := h e he
  refine ⟨M, fun n s' hn hle => ?_⟩
  have hid := curve_names l u v τ run hrun hn a
  replace hle : M ≤ (s'.1 a).2 := hle
  obtain ⟨h1, h2, h3⟩ := hM (s'.1 a).2 hle
  exact ⟨_, _, _, (curve_vals l u v _).1, (curve_vals l u v _).2.1, (curve_vals l u v _).2.2, by rw [hid]; exact h1, by rw [hid]; exact h2,
    by rw [hid]; exact h3⟩

theorem inv_small {e : ℚ} (he : 0 < e) : ∃ M : Nat, ∀ k : Nat, M ≤ k → 1 / (k + 1 : ℚ) ≤ e := by
  obtain ⟨M, hM⟩ := exists_nat_gt (1 / e)
  refine ⟨M, fun k hk => ?_⟩
  have : (M : ℚ) ≤ k := by exact_mod_cast hk
  rw [div_le_iff₀ (by positivity)]
  rw [div_lt_iff₀ he] at hM
  nlinarith

/-- non-vacuity: three arms with the true values 0, 2 and 4 and intervals of length `2/(k+1)` after `k` updates; `error_tol` is 1 -/
def shrinkLow (a k : Nat) : ℚ := 2 * a - 1 / (k + 1)
def shrinkUp (a k : Nat) : ℚ := 2 * a + 1 / (k + 1)
def shrinkVar (a _ : Nat) : ℚ := 2 * a

theorem shrinking_settles (run : Nat → Py ((Nat → Nat × Nat) × Unit) (Option (BanditData Nat ℚ)))
    (hrun : run ∈ [uniformRun steadyEnv (curveOps shrinkLow shrinkUp shrinkVar) (freeCfg 1) none,
      lucbRun steadyEnv (curveOps shrinkLow shrinkUp shrinkVar) (freeCfg 1) none,
      seRun steadyEnv (curveOps shrinkLow shrinkUp shrinkVar) (freeCfg 1) none]) (a : Nat) :
    Settles (curveOps shrinkLow shrinkUp shrinkVar) (fun s => s.2) run (fun a => (a, 0), ()) a (2 * a) := by
  refine curve_settles _ _ _ 1 run hrun a fun e he => ?_
  obtain ⟨M, hM⟩ := inv_small he
  refine ⟨M, fun k hk => ?_⟩
  have h0 : 0 < 1 / (k + 1 : ℚ) := by positivity
  have := hM k hk
  refine ⟨?_, ?_, ?_⟩ <;> rw [abs_le] <;> constructor <;> simp only [shrinkLow, shrinkUp, shrinkVar] <;> linarith

example : Ends (uniformRun steadyEnv (curveOps shrinkLow shrinkUp shrinkVar) (freeCfg 1) none) (fun a => (a, 0), ()) := by
  refine C93_uniform (by simp [freeCfg]) (τ := 1) rfl zero_le_one (curve_counts _ _ _) (fun n e s' h => ?_) (θ := fun a => 2 * a)
    (fun a _ => shrinking_settles _ (by simp) a) (b := 0) (gap := 2) ⟨by simp [freeCfg], fun a ha h0 => ?_⟩ one_lt_two
  · obtain ⟨r, s1, h1, -⟩ := (post_uniformRun (X := fun _ _ => False) (curve_reliable _ _ _ 1) (by simp [freeCfg]) rfl n).returns
      (s := (fun a => (a, 0), ())) (ready_nil fun a _ => Or.inl rfl)
    rw [h1] at h
    cases h
  · simp only [freeCfg, List.mem_cons, List.not_mem_nil, or_false] at ha
    rcases ha with rfl | rfl | rfl <;> first | exact absurd rfl h0 | norm_num

example : Ends (seRun steadyEnv (curveOps shrinkLow shrinkUp shrinkVar) (freeCfg 1) none) (fun a => (a, 0), ()) := by
  refine C93_successive_elimination_partial (by simp [freeCfg]) (curve_counts _ _ _) (fun n e s' h => ?_) (θ := fun a => 2 * a)
    (fun a _ => shrinking_settles _ (by simp) a) (fun a _ b _ hab => by simpa using hab)
  obtain ⟨r, s1, h1, -⟩ := (post_seRun (X := fun _ _ => False) (curve_reliable _ _ _ 1) rfl rfl n).returns
    (s := (fun a => (a, 0), ())) (ready_nil fun a _ => Or.inl rfl)
  rw [h1] at h
  cases h

theorem apart {a b : Nat} (hab : a ≠ b) : 1 ≤ |(a : ℚ) - b| := by
  have h : (1 : ℤ) ≤ |(a : ℤ) - b| := Int.one_le_abs (by omega)
  exact_mod_cast h

theorem shrink_apart {a b : Nat} (hab : a ≠ b) (k m : Nat) :
    shrinkLow a k ≠ shrinkLow b m ∧ shrinkUp a k ≠ shrinkUp b m ∧ shrinkVar a k ≠ shrinkVar b m := by
  have h := apart hab
  have hi : ∀ k : Nat, 0 < 1 / (k + 1 : ℚ) ∧ 1 / (k + 1 : ℚ) ≤ 1 := fun k => by
    refine ⟨by positivity, ?_⟩
    rw [div_le_one (by positivity)]
    linarith [(Nat.cast_nonneg k : (0 : ℚ) ≤ k)]
  have hk := hi k
  have hm := hi m
  simp only [shrinkLow, shrinkUp, shrinkVar]
  refine ⟨fun e => ?_, fun e => ?_, fun e => ?_⟩ <;> rcases le_abs'.mp h with h | h <;> linarith

example : Ends (lucbRun steadyEnv (curveOps shrinkLow shrinkUp shrinkVar) (freeCfg 1) none) (fun a => (a, 0), ()) := by
  refine C93_lucb_partial (by simp [freeCfg]) (τ := 1) rfl (curve_counts _ _ _) (fun n e s' h => ?_) (θ := fun a => 2 * a)
    (fun a _ => shrinking_settles _ (by simp) a) (fun n s' _ h => ?_) (fun a _ b _ hab => ?_)
  · rcases post_lucbRun (curve_reliable _ _ _ 1) (by simp [freeCfg]) rfl n (fun a => (a, 0), ()) (ready_nil fun a _ => Or.inl rfl) with
      ⟨r, s1, h1, -⟩ | ⟨e1, s1, h1, -, h2, h3⟩
    · rw [h1] at h
      cases h
    · have e0 : (s1.1 0).1 = 0 := (h2 0 (by simp [freeCfg])).1.elim id id
      have e1 : (s1.1 1).1 = 1 := (h2 1 (by simp [freeCfg])).1.elim id id
      have := h3 0 (by simp [freeCfg]) 1 (by simp [freeCfg])
      rw [(curve_vals _ _ _ _).2.2, (curve_vals _ _ _ _).2.2, e0, e1] at this
      simp [shrinkVar] at this
  · refine ⟨_, _, _, fun a _ => ⟨(curve_vals _ _ _ _).1, (curve_vals _ _ _ _).2.1, (curve_vals _ _ _ _).2.2⟩, fun a _ b _ hab => ?_⟩
    rw [curve_names shrinkLow shrinkUp shrinkVar 1 _ (by simp) h a, curve_names shrinkLow shrinkUp shrinkVar 1 _ (by simp) h b]
    exact shrink_apart hab _ _
  · rw [← mul_sub, abs_mul, abs_of_pos (by norm_num : (0 : ℚ) < 2)]
    linarith [apart hab]

/-- The values of the counterexample for LUCB: arm 0 shows 10 instead of -5 after its first update. -/
def misled (a k : Nat) : ℚ := if a = 0 then (if k ≤ 1 then 10 else -5) else if a = 1 then 2 else 3

/-- intervals of length `2/(k+1)` around the values -/
def misledOps : ArmOps (Nat × Nat) Unit ℚ ℚ := curveOps (fun a k => misled a k - 1 / (k + 1)) (fun a k => misled a k + 1 / (k + 1)) misled

theorem fl_eq (a b : ℚ) : (Fl.fin a).eq (.fin b) = decide (a = b) := rfl
theorem fl_lt (a b : ℚ) : (Fl.fin a).lt (.fin b) = decide (a < b) := rfl

theorem half_bounds (k : Nat) : 0 < (k + 1 + 1 : ℚ)⁻¹ ∧ (k + 1 + 1 : ℚ)⁻¹ ≤ 1 / 2 := by
  refine ⟨by positivity, ?_⟩
  rw [one_div]
  gcongr
  linarith [(Nat.cast_nonneg k : (0 : ℚ) ≤ k)]

theorem misled_select (heap : Nat → Nat × Nat) (h0 : heap 0 = (0, 1)) {k m : Nat} (h1 : heap 1 = (1, k + 1)) (h2 : heap 2 = (2, m + 1)) :
    selectArms steadyEnv misledOps (freeCfg 2) (heap, ()) = (.ok [1, 2], heap, ()) := by
  unfold selectArms
  rw [Py.bind_apply, Py.get_apply]
  dsimp only
  rw [Py.bind_apply, collectBounds_of (fun a _ => ⟨rfl, rfl, rfl⟩)]
  obtain ⟨x1, x2⟩ := half_bounds k
  obtain ⟨y1, y2⟩ := half_bounds m
  simp [freeCfg, lcbV, ucbV, varV, misledOps, curveOps, h0, h1, h2, misled, Fl.mul, Py.lift_apply, Fl.pyMin]
  generalize (k + 1 + 1 : ℚ)⁻¹ = x at *
  generalize (m + 1 + 1 : ℚ)⁻¹ = y at *
  have a1 : ¬ (10 + (1 + 1 : ℚ)⁻¹ = 2 + x) := fun h => by norm_num at h; linarith
  have a2 : ¬ (3 + y = 2 + x) := fun h => by linarith
  have a3 : 3 - y < 10 - (1 + 1 : ℚ)⁻¹ := by norm_num; linarith
  have a4 : ¬ (10 - (1 + 1 : ℚ)⁻¹ = 3 - y) := a3.ne'
  have a5 : ¬ (2 - x = 3 - y) := fun h => by linarith
  have b1 : ((Fl.fin (10 : ℚ)).minStep (Fl.fin 2)).minStep (Fl.fin 3) = .fin 2 := by decide +kernel
  rw [b1]
  simp [Py.bind_apply, Py.lift_apply, Fl.isNan, ExpData.filterMask, Fl.pyMax, Fl.minStep, fl_lt, fl_eq, chooseMasked, selectMask,
    a1, a2, a3, a4, a5, steadyEnv, Py.pure_apply]

theorem misled_check (heap : Nat → Nat × Nat) (h0 : heap 0 = (0, 1)) {k m : Nat} (h1 : heap 1 = (1, k + 1)) (h2 : heap 2 = (2, m + 1)) :
    checkEnd misledOps (freeCfg 2) heap = .ok (false, [1]) := by
  unfold checkEnd
  rw [collectBounds_of (fun a _ => ⟨rfl, rfl, rfl⟩)]
  obtain ⟨x1, x2⟩ := half_bounds k
  obtain ⟨y1, y2⟩ := half_bounds m
  simp only [bind, Except.bind]
  simp [freeCfg, lcbV, ucbV, varV, misledOps, curveOps, h0, h1, h2, misled, Fl.mul]
  generalize (k + 1 + 1 : ℚ)⁻¹ = x at *
  generalize (m + 1 + 1 : ℚ)⁻¹ = y at *
  have a3 : 3 - y < 10 - (1 + 1 : ℚ)⁻¹ := by norm_num; linarith
  have a4 : ¬ (2 + x < 3 - y + -2) := by linarith
  have b1 : ((Fl.fin (10 : ℚ)).minStep (Fl.fin 2)).minStep (Fl.fin 3) = .fin 2 := by decide +kernel
  have b2 : Fl.argmin [Fl.fin (10 : ℚ), .fin 2, .fin 3] = .ok 1 := by decide +kernel
  unfold endCondition
  rw [if_neg (by simp [Fl.isInf]), b2]
  simp only [Fl.pyMin, List.foldl_cons, List.foldl_nil, b1, bind, Except.bind]
  simp [Fl.isNan, at?, List.eraseIdx, Fl.minStep, fl_lt, Fl.sub, Fl.add, Fl.neg, a3]
  linarith

/-- `update` of one of the arms -/
theorem curve_update (l u v : Nat → Nat → ℚ) (heap : Nat → Nat × Nat) (d : ExpData ℚ) (δ : Fl ℚ) (a : Nat) :
    updateArm (curveOps l u v) a d δ (heap, ()) = (.ok (), Function.update heap a ((heap a).1, (heap a).2 + 1), ()) := rfl

theorem curve_record (l u v : Nat → Nat → ℚ) (k : Nat → Nat) (arms : List Nat) (h : Hist Nat ℚ) (heap : Nat → Nat × Nat) :
    ∃ h', Py.forEach (record (curveOps l u v) k) arms h (heap, ()) = (.ok h', heap, ()) := by
  induction arms generalizing h with
  | nil => exact ⟨h, rfl⟩
  | cons a arms ih =>
    unfold Py.forEach
    rw [Py.bind_apply, show record (curveOps l u v) k a h (heap, ()) = (.ok _, heap, ()) from rfl]
    exact ih _

theorem misled_round (h : Hist Nat ℚ) (heap : Nat → Nat × Nat) (h0 : heap 0 = (0, 1)) {k m : Nat} (h1 : heap 1 = (1, k + 1)) (h2 : heap 2 = (2, m + 1)) :
    ∃ h' heap', lucbRound steadyEnv misledOps (freeCfg 2) none h (heap, ()) = (.ok (.inl h'), heap', ()) ∧ heap' 0 = (0, 1) ∧
      heap' 1 = (1, k + 2) ∧ heap' 2 = (2, m + 2) := by
  obtain ⟨h', hrec⟩ := curve_record (fun a k => misled a k - 1 / (k + 1)) (fun a k => misled a k + 1 / (k + 1)) misled
    (fun a => if a ∈ [1, 2] then (freeCfg 2).unitsPerRound else 0) (freeCfg 2).arms h
    (Function.update (Function.update heap 1 (1, k + 2)) 2 (2, m + 2))
  refine ⟨addSamples (2 * (freeCfg 2).unitsPerRound) h', Function.update (Function.update heap 1 (1, k + 2)) 2 (2, m + 2), ?_, by simp [h0], by simp, by simp⟩
  unfold lucbRound
  rw [Py.bind_apply, show Py.lift (overLimit (freeCfg 2) h.total) (heap, ()) = (.ok false, heap, ()) from rfl]
  dsimp only
  rw [if_neg (by simp), Py.bind_apply, misled_select heap h0 h1 h2]
  dsimp only
  have hp : Py.forEach (pull steadyEnv misledOps (freeCfg 2) none) [1, 2] () (heap, ()) =
      (.ok (), Function.update (Function.update heap 1 (1, k + 2)) 2 (2, m + 2), ()) := by
    simp [Py.forEach, Py.bind_apply, pull, samplesFor, generate, steadyEnv, misledOps, curve_update, h1, h2, Py.pure_apply]
  rw [Py.bind_apply, hp]
  dsimp only
  rw [Py.bind_apply, show Py.forEach (record misledOps _) _ h _ = _ from hrec]
  dsimp only
  rw [Py.bind_apply, Py.get_apply]
  dsimp only
  rw [Py.bind_apply, misled_check _ (by simp [h0]) (k := k + 1) (m := m + 1) (by simp) (by simp)]
  rfl

theorem misled_loop (n : Nat) : ∀ (h : Hist Nat ℚ) (heap : Nat → Nat × Nat) (k m : Nat), heap 0 = (0, 1) → heap 1 = (1, k + 1) → heap 2 = (2, m + 1) →
    ∃ s' k' m', Py.loop (lucbRound steadyEnv misledOps (freeCfg 2) none) n h (heap, ()) = (.ok none, s') ∧
      s'.1 0 = (0, 1) ∧ s'.1 1 = (1, k' + 1) ∧ s'.1 2 = (2, m' + 1) := by
  induction n with
  | zero => intro h heap k m h0 h1 h2; exact ⟨_, _, _, rfl, h0, h1, h2⟩
  | succ n ih =>
    intro h heap k m h0 h1 h2
    obtain ⟨h', heap', e, g0, g1, g2⟩ := misled_round h heap h0 h1 h2
    rw [Py.loop, Py.bind_apply, e]
    exact ih h' heap' _ _ g0 g1 g2

theorem curve_first (l u v : Nat → Nat → ℚ) (τ : ℚ) (d : ExpData ℚ) (h : Hist Nat ℚ) :
    ∃ h' heap', Py.forEach (updateRecord (curveOps l u v) (freeCfg τ) d) (freeCfg τ).arms h (fun a => (a, 0), ()) = (.ok h', heap', ()) ∧
      heap' 0 = (0, 1) ∧ heap' 1 = (1, 1) ∧ heap' 2 = (2, 1) :=
  ⟨_, Function.update (Function.update (Function.update (fun a => (a, 0)) 0 (0, 1)) 1 (1, 1)) 2 (2, 1), rfl, by simp, by simp, by simp⟩

theorem misled_forever (n : Nat) : ∃ s' k m, lucbRun steadyEnv misledOps (freeCfg 2) none n (fun a => (a, 0), ()) = (.ok none, s') ∧
    s'.1 0 = (0, 1) ∧ s'.1 1 = (1, k + 1) ∧ s'.1 2 = (2, m + 1) := by
  obtain ⟨h', heap', e, h0, h1, h2⟩ := curve_first (fun a k => misled a k - 1 / (k + 1)) (fun a k => misled a k + 1 / (k + 1)) misled 2
    (ExpData.new (some (.d2 0 (List.replicate (freeCfg 2).unitsPerRound []))) (some (List.replicate (freeCfg 2).unitsPerRound 1))
      (some (List.replicate (freeCfg 2).unitsPerRound 0))) Hist.empty
  obtain ⟨s', k, m, hs, g⟩ := misled_loop n (addSamples ((freeCfg 2).arms.length * (freeCfg 2).unitsPerRound) h') heap' 0 0 h0 h1 h2
  refine ⟨s', k, m, ?_, g⟩
  unfold lucbRun
  rw [Py.bind_apply]
  dsimp only [lucbFirst, generate, steadyEnv]
  rw [Py.bind_apply, show Py.forEach (updateRecord misledOps _ _) _ _ _ = _ from e]
  exact hs

/-- **C93 (violated)** LUCB may run for ever although all arms settle, there are never ties, and the best arm is better than all others by more
than `error_tol`: the arms 1 and 2 differ by less than `error_tol`, and arm 0, whose first interval was wrong, is not updated any more. -/
theorem C93_lucb_violated : ∃ (ops : ArmOps (Nat × Nat) Unit ℚ ℚ) (K : Nat × Nat → Nat) (θ : Nat → ℚ), Counts ops K ∧
    (∀ a ∈ (freeCfg 2).arms, Settles ops K (lucbRun steadyEnv ops (freeCfg 2) none) (fun a => (a, 0), ()) a (θ a)) ∧
    (∀ n s', 1 ≤ n → lucbRun steadyEnv ops (freeCfg 2) none n (fun a => (a, 0), ()) = (.ok none, s') → GenericValues ops (freeCfg 2).arms s'.1) ∧
    BestBy (freeCfg 2).arms θ 7 0 ∧
    ∀ n, ∃ s', lucbRun steadyEnv ops (freeCfg 2) none n (fun a => (a, 0), ()) = (.ok none, s') := by
  refine ⟨misledOps, fun s => s.2, fun a => misled a 2, curve_counts _ _ _, ?_, ?_, ?_, ?_⟩
  · intro a ha
    refine curve_settles _ _ _ 2 _ (by simp [misledOps]) a fun e he => ?_
    obtain ⟨M, hM⟩ := inv_small he
    refine ⟨M + 2, fun k hk => ?_⟩
    have h0 : 0 < 1 / (k + 1 : ℚ) := by positivity
    have := hM k (by omega)
    have hk2 : misled a k = misled a 2 := by
      unfold misled
      rw [if_neg (show ¬ k ≤ 1 by omega)]
      rfl
    refine ⟨?_, ?_, ?_⟩ <;> rw [abs_le] <;> constructor <;> rw [hk2] <;> linarith
  · intro n s' _ hn
    obtain ⟨s1, k, m, h1, g0, g1, g2⟩ := misled_forever n
    rw [h1] at hn
    obtain rfl : s1 = s' := by simpa using hn
    refine ⟨_, _, _, fun a _ => ⟨(curve_vals _ _ _ _).1, (curve_vals _ _ _ _).2.1, (curve_vals _ _ _ _).2.2⟩, ?_⟩
    obtain ⟨x1, x2⟩ := half_bounds k
    obtain ⟨y1, y2⟩ := half_bounds m
    intro a ha b hb hab
    simp only [freeCfg, List.mem_cons, List.not_mem_nil, or_false] at ha hb
    rcases ha with rfl | rfl | rfl <;> rcases hb with rfl | rfl | rfl <;> first | exact absurd rfl hab | skip
    all_goals
      simp only [g0, g1, g2, misled, one_div]
      push_cast
      norm_num
      refine ⟨fun h => ?_, fun h => ?_⟩ <;> linarith
  · refine ⟨by simp [freeCfg], fun a ha h0 => ?_⟩
    simp only [freeCfg, List.mem_cons, List.not_mem_nil, or_false] at ha
    rcases ha with rfl | rfl | rfl <;> first | exact absurd rfl h0 | norm_num [misled]
  · intro n
    obtain ⟨s', k, m, h, -⟩ := misled_forever n
    exact ⟨s', h⟩

/-- The values of the counterexample for elimination: likewise, but the arms 1 and 2 are equally good. -/
def dropped (a k : Nat) : ℚ := if a = 0 then (if k ≤ 1 then 10 else -5) else 2

def droppedOps : ArmOps (Nat × Nat) Unit ℚ ℚ := curveOps (fun a k => dropped a k - 1 / (k + 1)) (fun a k => dropped a k + 1 / (k + 1)) dropped

theorem eliminate_none {h : Hist Nat ℚ} {l u : ℚ} (hlu : l < u) (h1 : ∀ a ∈ [1, 2], lastOf (h.lcb a) = .ok (.fin l) ∧ lastOf (h.ucb a) = .ok (.fin u) ∧
    lastOf (h.var a) = .ok (.fin 2)) : eliminate h [1, 2] = .ok [1, 2] := by
  obtain ⟨a1, a2, a3⟩ := h1 1 (by simp)
  obtain ⟨b1, b2, b3⟩ := h1 2 (by simp)
  simp [eliminate, a1, a2, a3, b1, b2, b3, Fl.pyMin, Fl.minStep, fl_lt, fl_eq, ExpData.filterMask, bind, Except.bind, pure, Except.pure, hlu]

theorem eliminate_first {h : Hist Nat ℚ} {l u l0 u0 : ℚ} (hlu : l < u) (hl0 : u ≤ l0) (h0 : lastOf (h.lcb 0) = .ok (.fin l0) ∧ lastOf (h.ucb 0) = .ok (.fin u0) ∧
    lastOf (h.var 0) = .ok (.fin 10)) (h1 : ∀ a ∈ [1, 2], lastOf (h.lcb a) = .ok (.fin l) ∧ lastOf (h.ucb a) = .ok (.fin u) ∧
    lastOf (h.var a) = .ok (.fin 2)) : eliminate h [0, 1, 2] = .ok [1, 2] := by
  obtain ⟨a1, a2, a3⟩ := h1 1 (by simp)
  obtain ⟨b1, b2, b3⟩ := h1 2 (by simp)
  obtain ⟨c1, c2, c3⟩ := h0
  have d : (2 : ℚ) < 10 := by norm_num
  have e : ¬ ((10 : ℚ) = 2) := by norm_num
  simp [eliminate, a1, a2, a3, b1, b2, b3, c1, c2, c3, Fl.pyMin, Fl.minStep, fl_lt, fl_eq, ExpData.filterMask, bind, Except.bind, pure, Except.pure, hlu, d, e,
    show ¬ l0 < u from not_lt.mpr hl0]

theorem last_setLast (n : Nat) (l : List Nat) (h : Hist Nat ℚ) : (l.foldl (fun h a => setLastSample n a h) h).lcb = h.lcb ∧
    (l.foldl (fun h a => setLastSample n a h) h).ucb = h.ucb ∧ (l.foldl (fun h a => setLastSample n a h) h).var = h.var := by
  induction l generalizing h with
  | nil => exact ⟨rfl, rfl, rfl⟩
  | cons a l ih => exact ih _

/-- one round, given the outcome of the elimination -/
theorem dropped_step (h : Hist Nat ℚ) (heap heap' : Nat → Nat × Nat) (cands : List Nat) (h2 : 2 ≤ cands.length)
    (hp : Py.forEach (pull steadyEnv droppedOps (freeCfg 2) none) cands () (heap, ()) = (.ok (), heap', ()))
    (he : ∀ h' : Hist Nat ℚ, (∀ a ∈ [0, 1, 2], lastOf (h'.lcb a) = .ok (lcbV droppedOps heap' a) ∧ lastOf (h'.ucb a) = .ok (ucbV droppedOps heap' a) ∧
      lastOf (h'.var a) = .ok (varV droppedOps heap' a)) → eliminate h' cands = .ok [1, 2]) :
    ∃ h', seRound steadyEnv droppedOps (freeCfg 2) none (h, cands) (heap, ()) = (.ok (.inl (h', [1, 2])), heap', ()) := by
  obtain ⟨h1, hrec⟩ := curve_record (fun a k => dropped a k - 1 / (k + 1)) (fun a k => dropped a k + 1 / (k + 1)) dropped
    (fun _ => 0) (freeCfg 2).arms (addSamples (cands.length * (freeCfg 2).unitsPerRound) h) heap'
  refine ⟨cands.foldl (fun h a => setLastSample (freeCfg 2).unitsPerRound a h) h1, ?_⟩
  obtain ⟨-, hext, -⟩ := record_forEach (by simp [freeCfg]) hrec
  unfold seRound
  dsimp only
  rw [if_neg (by omega), Py.bind_apply, show Py.lift (overLimit (freeCfg 2) h.total) (heap, ()) = (.ok false, heap, ()) from rfl]
  dsimp only
  rw [if_neg (by simp), Py.bind_apply, hp]
  dsimp only
  rw [Py.bind_apply, show Py.forEach (record droppedOps _) _ _ _ = _ from hrec]
  dsimp only
  rw [Py.bind_apply, he _ (fun a ha => ?_)]
  · rfl
  · obtain ⟨e1, e2, e3⟩ := last_setLast (freeCfg 2).unitsPerRound cands h1
    obtain ⟨l, u, v, f1, f2, f3, f4, f5, f6, -⟩ := hext a ha
    rw [e1, e2, e3, f4, f5, f6]
    refine ⟨?_, ?_, ?_⟩ <;> simp only [lastOf, List.getLast?_concat, lcbV, ucbV, varV]
    · rw [show Option.map (droppedOps.cost (heap' a)).mul (droppedOps.ci (heap' a)).1 = some l from f1]; rfl
    · rw [show Option.map (droppedOps.cost (heap' a)).mul (droppedOps.ci (heap' a)).2 = some u from f2]; rfl
    · rw [show Option.map (droppedOps.cost (heap' a)).mul (droppedOps.varEst (heap' a)) = some v from f3]; rfl

theorem dropped_vals (heap : Nat → Nat × Nat) {k : Nat} (h1 : heap 1 = (1, k + 1)) (h2 : heap 2 = (2, k + 1)) : ∀ a ∈ [1, 2],
    lcbV droppedOps heap a = .fin (2 - 1 / (k + 1 + 1)) ∧ ucbV droppedOps heap a = .fin (2 + 1 / (k + 1 + 1)) ∧ varV droppedOps heap a = .fin 2 := by
  intro a ha
  simp only [List.mem_cons, List.not_mem_nil, or_false] at ha
  rcases ha with rfl | rfl <;> simp [lcbV, ucbV, varV, droppedOps, curveOps, h1, h2, dropped, Fl.mul]

theorem dropped_loop (n : Nat) : ∀ (h : Hist Nat ℚ) (heap : Nat → Nat × Nat) (k : Nat), heap 1 = (1, k + 1) → heap 2 = (2, k + 1) →
    ∃ s', Py.loop (seRound steadyEnv droppedOps (freeCfg 2) none) n (h, [1, 2]) (heap, ()) = (.ok none, s') := by
  induction n with
  | zero => intro h heap k _ _; exact ⟨_, rfl⟩
  | succ n ih =>
    intro h heap k h1 h2
    have g1 : Function.update (Function.update heap 1 (1, k + 2)) 2 (2, k + 2) 1 = (1, k + 1 + 1) := by simp
    have g2 : Function.update (Function.update heap 1 (1, k + 2)) 2 (2, k + 2) 2 = (2, k + 1 + 1) := by simp
    obtain ⟨h', e⟩ := dropped_step h heap (Function.update (Function.update heap 1 (1, k + 2)) 2 (2, k + 2)) [1, 2] (by simp) (by
      simp [Py.forEach, Py.bind_apply, pull, samplesFor, generate, steadyEnv, droppedOps, curve_update, h1, h2, Py.pure_apply])
      (fun h' hl => eliminate_none (l := 2 - 1 / ((k + 1 : Nat) + 1 + 1)) (u := 2 + 1 / ((k + 1 : Nat) + 1 + 1)) (by
        have : (0 : ℚ) < 1 / ((k + 1 : Nat) + 1 + 1) := by positivity
        linarith) fun a ha => by
          obtain ⟨v1, v2, v3⟩ := dropped_vals _ g1 g2 a ha
          rw [← v1, ← v2, ← v3]
          exact hl a (by simp at ha ⊢; omega))
    rw [Py.loop, Py.bind_apply, e]
    exact ih h' _ (k + 1) g1 g2

theorem dropped_forever (n : Nat) : ∃ s', seRun steadyEnv droppedOps (freeCfg 2) none n (fun a => (a, 0), ()) = (.ok none, s') := by
  unfold seRun
  cases n with
  | zero => exact ⟨_, rfl⟩
  | succ n =>
    have g0 : Function.update (Function.update (Function.update (fun a : Nat => (a, 0)) 0 (0, 1)) 1 (1, 1)) 2 (2, 1) 0 = (0, 1) := by simp
    have g1 : Function.update (Function.update (Function.update (fun a : Nat => (a, 0)) 0 (0, 1)) 1 (1, 1)) 2 (2, 1) 1 = (1, 0 + 1) := by simp
    have g2 : Function.update (Function.update (Function.update (fun a : Nat => (a, 0)) 0 (0, 1)) 1 (1, 1)) 2 (2, 1) 2 = (2, 0 + 1) := by simp
    obtain ⟨h', e⟩ := dropped_step Hist.empty (fun a => (a, 0))
      (Function.update (Function.update (Function.update (fun a : Nat => (a, 0)) 0 (0, 1)) 1 (1, 1)) 2 (2, 1)) [0, 1, 2] (by simp) rfl
      (fun h' hl => eliminate_first (l := 2 - 1 / ((0 : Nat) + 1 + 1)) (u := 2 + 1 / ((0 : Nat) + 1 + 1)) (l0 := 10 - 1 / 2) (u0 := 10 + 1 / 2) (by norm_num) (by norm_num)
        (by
          obtain ⟨v1, v2, v3⟩ := hl 0 (by simp)
          rw [v1, v2, v3]
          simp [lcbV, ucbV, varV, droppedOps, curveOps, g0, dropped, Fl.mul]
          norm_num)
        fun a ha => by
          obtain ⟨v1, v2, v3⟩ := dropped_vals _ g1 g2 a ha
          rw [← v1, ← v2, ← v3]
          exact hl a (by simp at ha ⊢; omega))
    rw [Py.loop, Py.bind_apply, show (freeCfg 2).arms = [0, 1, 2] from rfl, e]
    exact dropped_loop n h' _ 0 g1 g2

/-- **C93 (violated)** Successive elimination may run for ever although all arms settle and the best arm is better than all others: arm 0, whose
first interval was wrong, is eliminated in the first round, and the arms 1 and 2 are equally good. -/
theorem C93_successive_elimination_violated : ∃ (ops : ArmOps (Nat × Nat) Unit ℚ ℚ) (K : Nat × Nat → Nat) (θ : Nat → ℚ), Counts ops K ∧
    (∀ a ∈ (freeCfg 2).arms, Settles ops K (seRun steadyEnv ops (freeCfg 2) none) (fun a => (a, 0), ()) a (θ a)) ∧
    BestBy (freeCfg 2).arms θ 7 0 ∧
    ∀ n, ∃ s', seRun steadyEnv ops (freeCfg 2) none n (fun a => (a, 0), ()) = (.ok none, s') := by
  refine ⟨droppedOps, fun s => s.2, fun a => dropped a 2, curve_counts _ _ _, ?_, ?_, dropped_forever⟩
  · intro a ha
    refine curve_settles _ _ _ 2 _ (by simp [droppedOps]) a fun e he => ?_
    obtain ⟨M, hM⟩ := inv_small he
    refine ⟨M + 2, fun k hk => ?_⟩
    have h0 : 0 < 1 / (k + 1 : ℚ) := by positivity
    have := hM k (by omega)
    have hk2 : dropped a k = dropped a 2 := by
      unfold dropped
      rw [if_neg (show ¬ k ≤ 1 by omega)]
      rfl
    refine ⟨?_, ?_, ?_⟩ <;> rw [abs_le] <;> constructor <;> rw [hk2] <;> linarith
  · refine ⟨by simp [freeCfg], fun a ha h0 => ?_⟩
    simp only [freeCfg, List.mem_cons, List.not_mem_nil, or_false] at ha
    rcases ha with rfl | rfl | rfl <;> first | exact absurd rfl h0 | norm_num [dropped]

end Bandit
end Verif
