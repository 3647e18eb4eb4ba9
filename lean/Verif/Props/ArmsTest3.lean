import Verif.Props.ArmsTest2

/-!
# Property C109: the later assertions of the project's test of the front-door arm
-/

set_option linter.unusedSectionVars false
set_option linter.unusedSimpArgs false

namespace Verif
open Arm Param Section5

namespace FrontDoor
variable {M : Type} {R : Predictor M ℝ} {ridge0 : M} {k : ℕ}

theorem fitted_iff {s e : FrontDoor M ℝ} (hk : s.covDim = k) {us : List (Obs ℝ)} (h : (ops R ridge0).fit s (Obs.dataset k us) = (.ok (), e)) :
    e.hasBeenFit = (s.hasBeenFit || !tooFew s.minUnits (Obs.dataset k us).nUnits (us.map Obs.x)) ∧ e.minUnits = s.minUnits := by
  subst hk
  change fit R (Obs.dataset s.covDim us) s = _ at h
  cases hf : tooFew s.minUnits (Obs.dataset s.covDim us).nUnits (us.map Obs.x) with
  | true =>
    rw [fit_few R us s hf] at h
    obtain ⟨-, rfl⟩ := Prod.mk.inj h
    simp
  | false =>
    rw [fit_enough R us s hf] at h
    generalize R.fitRows (us.map fun u => u.xv :: u.zv) (us.map Obs.yv) s.yResponse = r at h
    obtain ⟨_ | _, m⟩ := r
    · simp at h
    · generalize s.cpd.fit (us.map fun u => u.x.key) (us.map fun u => rowKey u.z) = r' at h
      obtain ⟨_ | _, t⟩ := r'
      · simp at h
      · obtain ⟨-, rfl⟩ := Prod.mk.inj h
        simp

theorem Alike.fitted {s t : FrontDoor M ℝ} (h : Alike s t) : t.hasBeenFit = s.hasBeenFit ∧ t.minUnits = s.minUnits := by
  rw [h.1]
  exact ⟨rfl, rfl⟩

end FrontDoor

namespace ArmsTest
open Example
variable {V : Type}

/-- **C109** The first assertion, for every pair of values: it accepts numbers whose distance is at most the tolerance times the absolute value
of the second one, and otherwise only equal values, NaN beside NaN included; so a NaN estimate beside a NaN variance passes. -/
theorem C109_assert_allclose (x y : Fl ℝ) (r : ℝ) : closeTo x y r = true ↔ (∃ a b : ℝ, x = .fin a ∧ y = .fin b ∧ |a - b| ≤ r * |b|) ∨ (x = y ∧ ∀ a, x ≠ .fin a) := by
  cases x <;> cases y <;> simp [closeTo]

/-- non-vacuity: NaN is accepted beside NaN; the order of the arguments matters -/
example : closeTo .nan .nan (1 / 20) = true ∧ closeTo .nan (.fin 1) (1 / 20) = false ∧ closeTo (.fin 19) (.fin 20) (1 / 20) = true ∧ closeTo (.fin 20) (.fin 19) (1 / 20) = false := by
  refine ⟨?_, ?_, ?_, ?_⟩
  · rw [C109_assert_allclose]; right; simp
  · rw [Bool.eq_false_iff, ne_eq, C109_assert_allclose]; simp
  · rw [C109_assert_allclose]; left; exact ⟨19, 20, rfl, rfl, by norm_num [abs_le, abs_of_pos]⟩
  · rw [Bool.eq_false_iff, ne_eq, C109_assert_allclose]
    rintro (⟨a, b, ha, hb, h⟩ | ⟨-, h⟩)
    · cases ha; cases hb
      rw [abs_of_pos (by norm_num), abs_of_pos (by norm_num)] at h
      norm_num at h
    · exact h _ rfl

theorem lessAt_iff (x y : Fl ℝ) : lessAt x y = true ↔ (x = .nan ∧ y = .nan) ∨ (∃ a b : ℝ, x = .fin a ∧ y = .fin b ∧ a < b) ∨ (x = .ninf ∧ y ≠ .nan ∧ y ≠ .ninf) ∨ (y = .pinf ∧ x ≠ .nan ∧ x ≠ .pinf) := by
  cases x <;> cases y <;> simp [lessAt, Fl.isNan, Fl.lt]

theorem mapM_values (xs : List (Option (Fl ℝ))) : (none ∈ xs → (xs.map TestUtils.Entry.num).mapM value = .error .typeError) ∧
    ∀ ys, xs = ys.map some → (xs.map TestUtils.Entry.num).mapM value = .ok ys := by
  constructor
  · intro h
    induction xs with
    | nil => simp at h
    | cons x xs ih =>
      rw [List.map_cons, List.mapM_cons]
      cases x with
      | none => rfl
      | some x =>
        rw [ih ((List.mem_cons.1 h).resolve_left (by simp))]
        rfl
  · rintro ys rfl
    induction ys with
    | nil => rfl
    | cons y ys ih =>
      rw [List.map_cons, List.map_cons, List.mapM_cons, ih]
      rfl

/-- **C108** `np.testing.assert_array_less` on two lists of estimates: a `TypeError` if an estimate is `None`; otherwise it accepts exactly if the lists have equal lengths and
at every position either both are NaN, or the first number is less than the second. -/
theorem C108_assert_array_less (xs ys : List (Option (Fl ℝ))) :
    (none ∈ xs ∨ none ∈ ys → arrayLess (xs.map .num) (ys.map .num) = .error .typeError) ∧
    ∀ us vs : List (Fl ℝ), xs = us.map some → ys = vs.map some → ∃ b, arrayLess (xs.map .num) (ys.map .num) = .ok b ∧
      (b = true ↔ us.length = vs.length ∧ ∀ q ∈ us.zip vs, (q.1 = .nan ∧ q.2 = .nan) ∨ (∃ a b : ℝ, q.1 = .fin a ∧ q.2 = .fin b ∧ a < b) ∨
        (q.1 = .ninf ∧ q.2 ≠ .nan ∧ q.2 ≠ .ninf) ∨ (q.2 = .pinf ∧ q.1 ≠ .nan ∧ q.1 ≠ .pinf)) := by
  have some_or : ∀ zs : List (Option (Fl ℝ)), none ∈ zs ∨ ∃ ws : List (Fl ℝ), zs = ws.map some := by
    intro zs
    induction zs with
    | nil => exact Or.inr ⟨[], rfl⟩
    | cons z zs ih =>
      cases z with
      | none => simp
      | some z =>
        rcases ih with h | ⟨ws, rfl⟩
        · exact Or.inl (List.mem_cons_of_mem _ h)
        · exact Or.inr ⟨z :: ws, rfl⟩
  constructor
  · intro h
    unfold arrayLess
    rcases some_or xs with hx | ⟨us, hx⟩
    · rw [(mapM_values xs).1 hx]
      rfl
    · rw [(mapM_values xs).2 us hx, (mapM_values ys).1 (h.resolve_left (by simp [hx]))]
      rfl
  · intro us vs hx hy
    refine ⟨us.length == vs.length && (List.zipWith lessAt us vs).all id, ?_, ?_⟩
    · unfold arrayLess
      rw [(mapM_values xs).2 us hx, (mapM_values ys).2 vs hy]
      rfl
    · simp only [Bool.and_eq_true, beq_iff_eq, List.all_eq_true, id_eq, ← lessAt_iff]
      refine and_congr_right fun _ => ?_
      rw [← List.map_uncurry_zip_eq_zipWith]
      simp [Function.uncurry]

/-- an estimate `None`; a NaN beside a NaN; a NaN beside a number -/
example : arrayLess [.num none] [.num (some .pinf)] = .error .typeError ∧
    arrayLess [.num (some .nan), .num (some (.fin 1))] [.num (some .nan), .num (some .pinf)] = .ok true ∧ arrayLess [.num (some .nan)] [.num (some (.fin 1))] = .ok false := by
  refine ⟨(C108_assert_array_less [none] [some .pinf]).1 (by simp), ?_, ?_⟩
  · obtain ⟨b, h1, h2⟩ := (C108_assert_array_less [some .nan, some (.fin 1)] [some .nan, some .pinf]).2 [.nan, .fin 1] [.nan, .pinf] rfl rfl
    rw [h2.2 (by simp)] at h1
    exact h1
  · obtain ⟨b, h1, h2⟩ := (C108_assert_array_less [some .nan] [some (.fin 1)]).2 [.nan] [.fin 1] rfl rfl
    have hb : b = false := Bool.eq_false_iff.2 fun h => by simpa using h2.1 h
    rw [hb] at h1
    exact h1

/-- a round of the arm of the test -/
theorem front_arm_round {M : Type} {R : Predictor M ℝ} {ridge0 : M} {e0 : FrontDoor M ℝ} {us vs : List (Obs ℝ)} {st : ArmState (FrontDoor M ℝ) (Cell ℝ) ℝ} (hdim : e0.covDim = 1)
    (h : RoundOf (FrontDoor.ops R ridge0) e0 (Obs.dataset 1 us) (Obs.dataset 1 vs) st) :
    st.eta.hasBeenFit = (e0.hasBeenFit || !tooFew e0.minUnits (Obs.dataset 1 us).nUnits (us.map Obs.x)) ∧
    ∃ lo hi v, st.ci = (some lo, some hi) ∧ st.varEst = some v ∧
      ((lessAt lo v = true ∧ lessAt v hi = true) ↔ st.eta.hasBeenFit = true ∧ v ≠ .fin 0) := by
  obtain ⟨e1, hf, ⟨h1, rfl, h3, h4⟩ | ⟨h1, xs, e2, e3, h2, h3, rfl, h4, h6, lo, hi, h7, h8, h9⟩⟩ := h
  · refine ⟨(FrontDoor.fitted_iff hdim hf).1, _, _, _, h4, h3, ?_⟩
    have : st.eta.hasBeenFit = false := by simpa [FrontDoor.ops] using h1
    rw [this]
    simp [lessAt, Fl.isNan, Fl.lt]
  · have a12 := (FrontDoor.score_alike R ridge0 e1 (Obs.dataset 1 vs)).fitted
    have a23 := (FrontDoor.score_alike R ridge0 e2 (Obs.dataset 1 vs)).fitted
    rw [h2] at a12
    rw [h3] at a23
    have hfit : e1.hasBeenFit = true := by simpa [FrontDoor.ops] using h1
    have e3fit : st.eta.hasBeenFit = e1.hasBeenFit := a23.1.trans a12.1
    refine ⟨e3fit.trans (FrontDoor.fitted_iff hdim hf).1, lo, hi, _, h7, h6, ?_⟩
    rw [h8, h9, e3fit, hfit]
    simp only [decide_eq_true_eq, and_true, true_and, ne_eq, Fl.fin.injEq]
    exact ⟨fun h => h.ne', fun h => lt_of_le_of_ne (pvar_nonneg _) (Ne.symm h)⟩

theorem front_exposed_iff {p alpha : ℝ} {u : ℕ → ℝ} {i : ℕ} : FrontExposed p alpha u i ↔ fX p alpha (u i) (u (1500 + i)) = 1 := by
  unfold FrontExposed fX fU bit logistic
  by_cases h : u i < p
  · simp [h]
  · norm_num [h]

theorem triple_positions {i : ℕ} (hi : i < 1500) : triplePos 1500 0 i = i ∧ triplePos 1500 1 i = 1500 + i := by
  unfold triplePos
  rw [Nat.div_eq_of_lt hi, Nat.mod_eq_of_lt hi]
  omega

/-- **C109** The later assertions of `test_frontdoor_arm` depend on which 750 units of the first batch of the arm the shuffle puts into the first fold, `I`, and on
the exposure of these units: whatever the ridge regression does (as long as it returns), whatever the parameters of the SCM and the random numbers, and however many
samples `n` have been generated before, the run of the arm ends, and these assertions hold if and only if at least five of the units of `I` are exposed, at least five are
not, and none of the seven variance estimates is 0. -/
theorem C109_front_door_checks (rng : Verif.Rng V ℝ) (v0 : V) : ∃ I : Finset ℕ, I ⊆ Finset.range 1500 ∧ I.card = 750 ∧
    ∀ {H : Type} (R : Predictor (LinEst H ℝ) ℝ), R.Total → ∀ (ridge0 : LinEst H ℝ) (fuel : ℕ), 7 ≤ fuel →
    ∀ a ∈ Set.Ico (0 : ℝ) 1, ∀ b c d e : ℝ, ∀ (u g : ℕ → ℝ) (n : ℕ),
    ∃ F samples st dict w' pass, ∃ vars : List (Fl ℝ), runFrontDoor Numbers.gen (Numbers.rng rng) R ridge0 n 10000 fuel (Numbers.start [a, b, c, d, e] u g v0) = (.ok (some (F, samples, st, dict)), w') ∧
      checks dict = .ok pass ∧ dict.get? "var_estimates" = some (vars.map fun v => .num (some v)) ∧ vars.length = 7 ∧
      (pass = true ↔ FrontFiveOfEach (1 / 5 + 3 / 5 * a) (-(3 / 10) + 3 / 5 * d) (fun j => u (3 * n + j)) I ∧ .fin 0 ∉ vars) := by
  classical
  set σ := (rng.perm 1500 v0).1 with hσ
  have hlen : (foldPos 1500 σ 0).length = 750 := by
    unfold foldPos
    rw [ExpData.length_filter_label 1500 2 0 (by omega) (by omega) σ]
    simp
  refine ⟨(foldPos 1500 σ 0).toFinset, ?_, ?_, ?_⟩
  · intro i hi
    exact Finset.mem_range.2 (foldPos_lt (List.mem_toFinset.1 hi))
  · rw [List.toFinset_card_of_nodup (foldPos_sorted _ _ _), hlen]
  intro H R hR ridge0 fuel hfuel a ha b c d e u g n
  have hp : 0 ≤ 1 / 5 + 3 / 5 * a ∧ 1 / 5 + 3 / 5 * a ≤ 1 := ⟨by linarith [ha.1], by linarith [ha.2]⟩
  obtain ⟨S, hS, -⟩ := C65_frontdoor_sampler (Numbers.gen (V := V)) (1 / 5 + 3 / 5 * a) (-1 + 2 * b) (5 + 5 * c) (-(3 / 10) + 3 / 5 * d) (-(3 / 10) + 3 / 5 * e) hp
  obtain ⟨fl, hfl⟩ : ∃ fl : ℕ → ℝ, fl = followedBy [a, b, c, d, e] u := ⟨_, rfl⟩
  have hfb : ∀ j, fl (5 + j) = u j := by
    intro j
    rw [hfl, followedBy, List.getD_eq_default _ _ (by simp)]
    simp
  obtain ⟨N, hN⟩ : ∃ N : ℕ → (ℝ × ℝ) × ℝ × ℝ, N = fun k => fourNumbers (fun i (_ : Unit) => fl (5 + n + n + n + i)) (fun i _ => g (n + i)) 1500 k () := ⟨_, rfl⟩
  have hshow : Shows frontArm.transform 2 1 fun u => { u with z := ExpData.gather [1] u.z } := shows_removeCoord
  have hstart := frontDoor_start (a := a) (b := b) (c := c) (d := d) (e := e) u g v0
  generalize hpe : 1 / 5 + 3 / 5 * a = p at hS hp hstart ⊢
  generalize hbe : -1 + 2 * b = beta at hS hstart
  generalize hge : 5 + 5 * c = gamma at hS hstart
  generalize hal : -(3 / 10) + 3 / 5 * d = alpha1 at hS hstart ⊢
  generalize hal2 : -(3 / 10) + 3 / 5 * e = alpha2 at hS hstart
  obtain ⟨s, ci, h0, hs, hround⟩ := stream_fs (W := V) (k := 1) (x0 := .int 0) (x1 := .int 1) (FrontDoor.safe R ridge0 hR (by simp [Cell.val]) (by simp [Cell.val]))
      (FrontDoor.repeatable _ _) frontArm_fs rfl rng (size := fun _ => 1500) (fun _ => by norm_num) (fun n => Bandit.seedAt rng 1500 v0 n)
      (fun i => mediatorUnit p beta gamma alpha1 alpha2 (N i))
      (fun n => hshow.blocks (u := fun i => frontUnitOf p beta gamma alpha1 alpha2 (N i)) (fun _ => rfl) 1500 n)
      (fun i => ⟨rfl, trunc_bit_cases _ _⟩) (Arm.init (FrontDoor.new ridge0 1 5 (1 / 20) 5)) rfl rfl
      (FrontDoor.safeState_new ridge0 le_rfl 5 (by norm_num) (1 / 20) 5 (by norm_num) (by norm_num) (by norm_num))
  have key := fun n => front_arm_round (hround n).1.dim (hround n).2
  choose kfit lo hi v kci kvar kless using key
  have hr : ∀ k, TestUtils.Round (ssArmOps frontArm (FrontDoor.ops R ridge0) realLib (Numbers.rng rng) (.fin 1)) (generate S) 1500 (.fin (1 / 20))
      (s k, roundWorld rng 1500 fl g (5 + n + n + n) n v0 k) (s (k + 1), roundWorld rng 1500 fl g (5 + n + n + n) n v0 (k + 1)) := by
    intro k
    refine front_round (view := fun u => { u with z := ExpData.gather [1] u.z }) (ci := ci) (by norm_num) hp hshow hS (.fin 1) v0 fl g (5 + n + n + n) n ?_ k
    have : (fun k => (fun u : Obs ℝ => { u with z := ExpData.gather [1] u.z }) (frontUnitOf p beta gamma alpha1 alpha2
        (fourNumbers (fun i (_ : Unit) => fl (5 + n + n + n + i)) (fun i _ => g (n + i)) 1500 k ()))) = fun i => mediatorUnit p beta gamma alpha1 alpha2 (N i) := by
      rw [hN]
      rfl
    rw [this]
    exact hs
  obtain ⟨dict, pass, hrun, hck, hvars, hpass⟩ := checks_of_rounds (ate := fun s => s.ate) (st := fun k => (s k, roundWorld rng 1500 fl g (5 + n + n + n) n v0 k)) hr kci kvar hfuel
  obtain ⟨samples, hgen⟩ : ∃ samples, generate S n { Numbers.start [a, b, c, d, e] u g v0 with i := 5 } = (.ok samples, roundWorld rng 1500 fl g (5 + n + n + n) n v0 0) := by
    refine ⟨_, (generate_front hp hS n _).trans (Prod.ext rfl ?_)⟩
    simp [roundWorld, Numbers.start, Bandit.seedAt, hfl]
  refine ⟨⟨S, frontDoorStats p beta gamma alpha1 alpha2, alpha1, alpha2, beta, gamma⟩, samples, s 7, dict, roundWorld rng 1500 fl g (5 + n + n + n) n v0 7, pass, (List.range 7).map v, ?_, hck, ?_, by simp, ?_⟩
  · unfold runFrontDoor
    rw [hstart, hS]
    simp only [Except.map]
    rw [hgen]
    dsimp only
    rw [← h0]
    unfold runArm
    rw [hrun]
  · rw [hvars, List.map_map]
    rfl
  · rw [hpass]
    have hmono : ∀ n, (s 1).eta.hasBeenFit = true → (s (n + 1)).eta.hasBeenFit = true := by
      intro n h1
      induction n with
      | zero => exact h1
      | succ n ih => rw [kfit, ih, Bool.true_or]
    have h1 : (∀ k < 7, lessAt (lo k) (v k) = true ∧ lessAt (v k) (hi k) = true) ↔ (s 1).eta.hasBeenFit = true ∧ Fl.fin 0 ∉ (List.range 7).map v := by
      simp only [kless, List.mem_map, List.mem_range, not_exists, not_and]
      exact ⟨fun h => ⟨(h 0 (by omega)).1, fun k hk => (h k hk).2⟩, fun h k hk => ⟨hmono k h.1, h.2 k hk⟩⟩
    rw [h1]
    refine and_congr_left fun _ => ?_
    rw [kfit 0, h0]
    have hidx : foldIdx rng (fun _ => 1500) (fun n => Bandit.seedAt rng 1500 v0 n) 0 1 = foldPos 1500 σ 0 := by
      simp [foldIdx, blockStart, Bandit.seedAt, hσ]
    have hbin : ∀ x ∈ (foldPos 1500 σ 0).map (fun i => mediatorUnit p beta gamma alpha1 alpha2 (N i)), x.Binary := by
      intro x hx
      obtain ⟨i, -, rfl⟩ := List.mem_map.1 hx
      exact (mediatorUnit_finite (N i)).binary
    simp only [Arm.init, FrontDoor.new, Bool.false_or, Bool.not_eq_true', Nat.zero_add]
    rw [hidx, ← Bool.not_eq_true, Obs.tooFew_iff _ hbin, not_not]
    have hx : ∀ i ∈ foldPos 1500 σ 0, (mediatorUnit p beta gamma alpha1 alpha2 (N i)).xv = fX p alpha1 (u (3 * n + i)) (u (3 * n + (1500 + i))) := by
      intro i hi
      obtain ⟨q1, q2⟩ := triple_positions (foldPos_lt hi)
      rw [show (mediatorUnit p beta gamma alpha1 alpha2 (N i)).xv = fX p alpha1 (N i).1.1 (N i).1.2 from trunc_bit _ _, hN]
      simp only [fourNumbers, q1, q2]
      rw [show 5 + n + n + n + i = 5 + (3 * n + i) by omega, show 5 + n + n + n + (1500 + i) = 5 + (3 * n + (1500 + i)) by omega, hfb, hfb]
    unfold FrontFiveOfEach
    rw [← five_of_count (foldPos_sorted 1500 σ 0), ← five_of_count (foldPos_sorted 1500 σ 0)]
    unfold Obs.treated Obs.control
    rw [List.countP_map, List.countP_map]
    rw [List.countP_congr (q := fun i => decide (FrontExposed p alpha1 (fun j => u (3 * n + j)) i)) (by
      intro i hi
      simp only [Function.comp, decide_eq_true_eq, front_exposed_iff, hx i hi])]
    rw [List.countP_congr (p := (fun x => decide (x.xv = 0)) ∘ fun i => mediatorUnit p beta gamma alpha1 alpha2 (N i)) (q := fun i => decide (¬ FrontExposed p alpha1 (fun j => u (3 * n + j)) i)) (by
      intro i hi
      simp only [Function.comp, decide_eq_true_eq, front_exposed_iff, hx i hi]
      rcases bit_cases (logistic (alpha1 * fU p (u (3 * n + i)))) (u (3 * n + (1500 + i))) with h | h <;> rw [show fX p alpha1 (u (3 * n + i)) (u (3 * n + (1500 + i))) = _ from h] <;> simp)]
    generalize (foldPos 1500 σ 0).countP _ = x
    generalize (foldPos 1500 σ 0).countP _ = y
    omega

/-- **C109** `test_frontdoor_arm` passes only if at least five of the 750 units of the first batch in the first fold are exposed and at least five are not. -/
theorem C109_front_door_test (rng : Verif.Rng V ℝ) (v0 : V) : ∃ I : Finset ℕ, I ⊆ Finset.range 1500 ∧ I.card = 750 ∧
    ∀ {H : Type} (R : Predictor (LinEst H ℝ) ℝ), R.Total → ∀ (ridge0 : LinEst H ℝ) (fuel : ℕ), 7 ≤ fuel →
    ∀ a ∈ Set.Ico (0 : ℝ) 1, ∀ b c d e : ℝ, ∀ u g : ℕ → ℝ,
    (testFrontDoor Numbers.gen (Numbers.rng rng) R ridge0 fuel (Numbers.start [a, b, c, d, e] u g v0)).1 = .ok (some true) →
    FrontFiveOfEach (1 / 5 + 3 / 5 * a) (-(3 / 10) + 3 / 5 * d) (fun j => u (150000 + j)) I := by
  obtain ⟨I, h1, h2, key⟩ := C109_front_door_checks rng v0
  refine ⟨I, h1, h2, fun R hR ridge0 fuel hfuel a ha b c d e u g h => ?_⟩
  obtain ⟨F, samples, st, dict, w', pass, vars, e1, e2, -, -, e5⟩ := key R hR ridge0 fuel hfuel a ha b c d e u g 50000
  unfold testFrontDoor at h
  rw [e1] at h
  dsimp only at h
  cases hv : varianceCheck R F samples st with
  | error x => rw [hv] at h; simp at h
  | ok x =>
    rw [hv] at h
    cases x with
    | false => simp at h
    | true =>
      rw [e2] at h
      exact (e5.1 (Option.some.inj (Except.ok.inj h))).1

section
open MeasureTheory ProbabilityTheory
variable {Ω : Type} [MeasurableSpace Ω] {P : Measure Ω} {U G : ℕ → Ω → ℝ}

theorem front_exposed_low {p d : ℝ} (hd : d ∈ Set.Ico (0 : ℝ) 1) {u : ℕ → ℝ} {i : ℕ} (h : u (1500 + i) < 1 / 4) : FrontExposed p (-(3 / 10) + 3 / 5 * d) u i := by
  unfold FrontExposed
  have := (logistic_bounds (t := -(3 / 10) + 3 / 5 * d) (by linarith [hd.1]) (by linarith [hd.2])).1
  unfold logistic at this
  by_cases hp : u i < p
  · exact Or.inr ⟨by linarith, hp⟩
  · exact Or.inl ⟨by linarith, hp⟩

theorem front_exposed_high {p d : ℝ} (hd : d ∈ Set.Ico (0 : ℝ) 1) {u : ℕ → ℝ} {i : ℕ} (h : FrontExposed p (-(3 / 10) + 3 / 5 * d) u i) : u (1500 + i) < 3 / 4 := by
  have := (logistic_bounds (t := -(3 / 10) + 3 / 5 * d) (by linarith [hd.1]) (by linarith [hd.2])).2
  unfold logistic at this
  obtain ⟨h, -⟩ | ⟨h, -⟩ := h <;> linarith

/-- **C109** For every seed of the shuffles and all parameters of the SCM, the probability that `test_frontdoor_arm` does not pass is positive; the probability that the later
assertions fail, although no variance estimate is 0, is at most `10 * 0.75^150`, whatever the number `n` of samples generated before. -/
theorem C109_front_door_probability (rng : Verif.Rng V ℝ) (v0 : V) {H : Type} (R : Predictor (LinEst H ℝ) ℝ) (hR : R.Total) (ridge0 : LinEst H ℝ) {fuel : ℕ} (hfuel : 7 ≤ fuel)
    {a b c d e : ℝ} (ha : a ∈ Set.Ico (0 : ℝ) 1) (hd : d ∈ Set.Ico (0 : ℝ) 1) (h : RandomNumbers P U G) (n : ℕ) :
    (1 / 4) ^ 750 ≤ P {ω | (testFrontDoor Numbers.gen (Numbers.rng rng) R ridge0 fuel (Numbers.start [a, b, c, d, e] (fun i => U i ω) (fun i => G i ω) v0)).1 ≠ .ok (some true)} ∧
    P {ω | ∃ F samples st dict w', runFrontDoor Numbers.gen (Numbers.rng rng) R ridge0 n 10000 fuel (Numbers.start [a, b, c, d, e] (fun i => U i ω) (fun i => G i ω) v0) =
        (.ok (some (F, samples, st, dict)), w') ∧ checks dict ≠ .ok true ∧ ∃ vars, dict.get? "var_estimates" = some vars ∧ .num (some (.fin 0)) ∉ vars} ≤ 10 * (3 / 4) ^ 150 := by
  have h14 : ENNReal.ofReal (1 / 4) = 1 / 4 := by rw [ENNReal.ofReal_div_of_pos (by norm_num)]; simp
  have h34 : ENNReal.ofReal (3 / 4) = 3 / 4 := by rw [ENNReal.ofReal_div_of_pos (by norm_num)]; simp
  constructor
  · obtain ⟨I, -, hI, key⟩ := C109_front_door_test rng v0
    have pr := prob_all h I (fun i => 150000 + (1500 + i)) (fun _ _ h => by simpa using h) (s := Set.Iio (1 / 4)) measurableSet_Iio
    rw [prob_low (by norm_num), h14, hI] at pr
    rw [← pr]
    refine measure_mono fun ω hall hpass => ?_
    obtain ⟨-, A, h1, h2, h3⟩ := key R hR ridge0 fuel hfuel a ha b c d e (fun i => U i ω) (fun i => G i ω) hpass
    obtain ⟨i, hi⟩ := Finset.card_pos.1 (by omega : 0 < A.card)
    exact h3 i hi (front_exposed_low hd (hall i (h1 hi)))
  · obtain ⟨I, -, hI, key⟩ := C109_front_door_checks rng v0
    obtain ⟨f, hf, hfI⟩ := five_parts hI
    have hfj : ∀ j, Function.Injective fun t => 3 * n + (1500 + f (j, t)) := fun j a b hab => (Prod.mk.inj (hf (by simpa using hab))).2
    have e1 := fun j => prob_all h Finset.univ (fun t : Fin 150 => 3 * n + (1500 + f (j, t))) (hfj j) (s := Set.Ici (1 / 4)) measurableSet_Ici
    have e2 := fun j => prob_all h Finset.univ (fun t : Fin 150 => 3 * n + (1500 + f (j, t))) (hfj j) (s := Set.Iio (3 / 4)) measurableSet_Iio
    rw [prob_high (by norm_num), show (1 - 1 / 4 : ℝ) = 3 / 4 by norm_num, h34, Finset.card_univ, Fintype.card_fin] at e1
    rw [prob_low (by norm_num), h34, Finset.card_univ, Fintype.card_fin] at e2
    calc _ ≤ P ((⋃ j : Fin 5, {ω | ∀ t ∈ Finset.univ, U (3 * n + (1500 + f (j, t))) ω ∈ Set.Ici (1 / 4)}) ∪ ⋃ j : Fin 5, {ω | ∀ t ∈ Finset.univ, U (3 * n + (1500 + f (j, t))) ω ∈ Set.Iio (3 / 4)}) := by
          refine measure_mono fun ω hfail => ?_
          obtain ⟨F, samples, st, dict, w', h1, h2, vars, h3, h4⟩ := hfail
          obtain ⟨F', samples', st', dict', w'', pass, vars', k1, k2, k3, -, k5⟩ := key R hR ridge0 fuel hfuel a ha b c d e (fun i => U i ω) (fun i => G i ω) n
          rw [h1] at k1
          obtain rfl : dict = dict' := by
            have := Option.some.inj (Except.ok.inj (Prod.mk.inj k1).1)
            simp only [Prod.mk.injEq] at this
            exact this.2.2.2
          rw [k3] at h3
          obtain rfl := Option.some.inj h3
          have hfive : ¬ FrontFiveOfEach _ _ _ _ := fun h => h2 (by
            rw [k2, k5.2 ⟨h, fun h0 => h4 (List.mem_map_of_mem h0)⟩])
          rw [FrontFiveOfEach, not_and_or] at hfive
          rcases hfive with h5 | h5
          · left
            obtain ⟨j, hj⟩ := five_of_parts hf hfI h5
            exact Set.mem_iUnion.2 ⟨j, fun t _ => le_of_not_gt fun hlt => hj t (front_exposed_low hd hlt)⟩
          · right
            obtain ⟨j, hj⟩ := five_of_parts hf hfI h5
            exact Set.mem_iUnion.2 ⟨j, fun t _ => front_exposed_high hd (not_not.1 (hj t))⟩
      _ ≤ (∑ j : Fin 5, P {ω | ∀ t ∈ Finset.univ, U (3 * n + (1500 + f (j, t))) ω ∈ Set.Ici (1 / 4)}) + ∑ j : Fin 5, P {ω | ∀ t ∈ Finset.univ, U (3 * n + (1500 + f (j, t))) ω ∈ Set.Iio (3 / 4)} :=
          (measure_union_le _ _).trans (add_le_add (measure_iUnion_fintype_le _ _) (measure_iUnion_fintype_le _ _))
      _ = 10 * (3 / 4) ^ 150 := by
          simp only [e1, e2]
          rw [Finset.sum_const, Finset.card_univ, Fintype.card_fin, nsmul_eq_mul, ← add_mul]
          norm_num

/-- non-vacuity: ridge regression with an intercept, and units of which all are exposed, or every second one -/
example (rng : Verif.Rng V ℝ) (v0 : V) :=
  C109_front_door_probability rng v0 (LinEst.predictor (fun x => x) (interceptFit 1) fun m => m) (fun _ _ _ _ _ => rfl) ⟨[], 0, ()⟩ le_rfl (a := 1 / 2) (b := 1 / 2) (c := 1 / 2) (d := 1 / 2) (e := 1 / 2)
    (by norm_num) (by norm_num) Example.NumbersDemo.randomNumbers 50000

example : ¬ FrontFiveOfEach (1 / 2) 0 (fun _ => 0) (Finset.range 750) ∧ FrontFiveOfEach (1 / 2) 0 (fun j => if j < 1510 then 0 else 1) (Finset.range 750) := by
  refine ⟨fun ⟨_, A, _, h2, h3⟩ => ?_, ⟨Finset.range 5, ?_, by simp, ?_⟩, Finset.Icc 10 14, ?_, by simp, ?_⟩
  · obtain ⟨i, hi⟩ := Finset.card_pos.1 (by omega : 0 < A.card)
    refine h3 i hi (Or.inr ⟨?_, by norm_num⟩)
    norm_num
  · exact Finset.range_subset_range.2 (by norm_num)
  · intro i hi
    have hi := Finset.mem_range.1 hi
    unfold FrontExposed
    simp only [show 1500 + i < 1510 by omega, show i < 1510 by omega, if_true]
    norm_num
  · intro i hi
    simp only [Finset.mem_Icc, Finset.mem_range] at hi ⊢
    omega
  · intro i hi
    have hi := Finset.mem_Icc.1 hi
    unfold FrontExposed
    simp only [show ¬ 1500 + i < 1510 by omega, show i < 1510 by omega, if_true, if_false]
    norm_num

end

end ArmsTest
end Verif
