import Verif.Spec.PaperSafe
import Verif.Lemmas.SafeArm
import Verif.Lemmas.Safe
import Verif.Lemmas.Arms7
import Verif.Lemmas.Rerun2
import Verif.Props.Section52
import Verif.Props.Paper2

/-!
# Lemmas: experiments with the examples of the paper
-/

set_option linter.unusedSectionVars false
set_option linter.unusedSimpArgs false

namespace Verif

/-! ## Nuisance parameters of one of two classes -/

namespace Arm
variable {E F : Type} {a : EtaOps E (Cell ℝ) ℝ} {b : EtaOps F (Cell ℝ) ℝ} {D : ExpData (Cell ℝ) → Prop} {I : E → Prop} {J : F → Prop}

theorem sumEtaOps_safe (ha : SafeEta a D I) (hb : SafeEta b D J) : SafeEta (sumEtaOps a b) D (Sum.elim I J) where
  fit := by
    rintro (e | e) d h hd
    · obtain ⟨e', h1, h2, h3⟩ := ha.fit e d h hd
      exact ⟨.inl e', by simp [sumEtaOps, h1], h2, h3⟩
    · obtain ⟨e', h1, h2, h3⟩ := hb.fit e d h hd
      exact ⟨.inr e', by simp [sumEtaOps, h1], h2, h3⟩
  enough := by
    rintro (e | e)
    · exact ha.enough e
    · exact hb.enough e
  score := by
    rintro (e | e) d h hd hen
    · obtain ⟨xs, e', h1, h2, h3, h4, h5⟩ := ha.score e d h hd hen
      exact ⟨xs, .inl e', by simp [sumEtaOps, h1], h2, h3, h4, h5⟩
    · obtain ⟨xs, e', h1, h2, h3, h4, h5⟩ := hb.score e d h hd hen
      exact ⟨xs, .inr e', by simp [sumEtaOps, h1], h2, h3, h4, h5⟩

end Arm

namespace PaperBandits
open Paper Section5 Arm Param
variable {W M P : Type}

/-- what is known of the nuisance parameter of an arm that uses `k` covariates -/
def EtaInv (k : Nat) : Eta M P → Prop := Sum.elim (FrontDoor.SafeState k (.int 0) (.int 1)) (AIPW.SafeCfg k)

theorem etaOps_safe {sk : Sklearn M P} (hs : GoodSklearn sk) (k : Nat) : SafeEta (etaOps sk) (GoodData k (.int 0) (.int 1) 1) (EtaInv k) :=
  sumEtaOps_safe (FrontDoor.safe sk.ridge sk.fdRidge0 hs.ridge (by simp [Cell.val]) (by simp [Cell.val]))
    (AIPW.safe sk.ridge sk.logistic hs.ridge hs.logistic (by simp [Cell.val]) (by simp [Cell.val]))

theorem etaInv_reset (sk : Sklearn M P) {k : Nat} {e : Eta M P} (h : EtaInv k e) : EtaInv k ((etaOps sk).reset e) := by
  rcases e with e | e
  · obtain ⟨h1, h2, h3, h4, h5, -, h7, -⟩ := h
    obtain ⟨g1, g2, g3, g4, g5, g6, g7, g8, g9, g10, g11, g12⟩ := FrontDoor.safeState_new (x0 := .int 0) (x1 := .int 1) sk.fdRidge0 h2 e.minUnits h3 e.minOverlap e.ratio h4 h5 h7
    subst h1
    exact ⟨g1, g2, g3, g4, g5, g6, g7, g8, g9, g10, g11, g12⟩
  · obtain ⟨h1, h2, h3, h4, h5⟩ := h
    exact ⟨h1, h2, h3, h4, h5⟩

theorem etaInv_new (sk : Sklearn M P) (a : ArmSpec ℝ) (h : 1 ≤ a.nFeatures) : EtaInv a.nFeatures (newEta sk a) := by
  unfold newEta
  cases a.eta with
  | frontDoor => exact FrontDoor.safeState_new _ h _ (by norm_num) _ _ (by norm_num) (by norm_num) (by norm_num)
  | aipw => exact ⟨rfl, h, by norm_num [AIPW.new], by norm_num [AIPW.new, AIPW.tiny], by norm_num [AIPW.new]⟩

/-! ## Data -/

/-- the arrays of a sample of `n` units with `k` covariates and a binary treatment -/
structure GoodSample (n k : Nat) (s : Sample ℝ) : Prop where
  cov : IsMat n k s.cov
  exp : ∃ xs, s.exp = .d1 xs ∧ xs.length = n ∧ ∀ x ∈ xs, x = 0 ∨ x = 1
  rsp : ∃ ys, s.rsp = .d1 ys ∧ ys.length = n

theorem trunc_zero : trunc 0 = 0 := by simp [trunc]
theorem trunc_one : trunc 1 = 1 := by simp [trunc]

theorem toData_good {n k : Nat} {s : Sample ℝ} (h : GoodSample n k s) : GoodData k (.int 0) (.int 1) n (toData s) := by
  obtain ⟨⟨rows, e1, h1, h2⟩, ⟨xs, e2, h3, h4⟩, ys, e3, h5⟩ := h
  refine ⟨(List.range n).map fun i => ⟨(rows.getD i []).map .flt, .int (trunc (xs.getD i 0)), .flt (ys.getD i 0)⟩, ?_, by simp, ?_⟩
  · have c1 : rows.map (·.map Cell.flt) = (List.range n).map fun i => (rows.getD i []).map Cell.flt := by
      apply List.ext_getElem
      · simp [h1]
      · intro i i1 i2
        simp only [List.length_map] at i1
        simp [i1]
    have c2 : (xs.map fun x => Cell.int (trunc x)) = (List.range n).map fun i => (Cell.int (trunc (xs.getD i 0)) : Cell ℝ) := by
      apply List.ext_getElem
      · simp [h3]
      · intro i i1 i2
        simp only [List.length_map] at i1
        simp [i1]
    have c3 : ys.map Cell.flt = (List.range n).map fun i => Cell.flt (ys.getD i 0) := by
      apply List.ext_getElem
      · simp [h5]
      · intro i i1 i2
        simp only [List.length_map] at i1
        simp [i1]
    unfold toData Obs.dataset
    rw [e1, e2, e3]
    simp only [Cpds.flatten, c1, c2, c3, List.map_map, Function.comp_def]
  · intro u hu
    obtain ⟨i, hi, rfl⟩ := List.mem_map.1 hu
    rw [List.mem_range] at hi
    refine ⟨?_, ?_⟩
    · have hi' : i < rows.length := by omega
      simpa [hi'] using h2 _ (List.getElem_mem hi')
    · have hi' : i < xs.length := by omega
      have := h4 _ (List.getElem_mem hi')
      simp only [List.getD_eq_getElem _ _ hi']
      rcases this with e | e <;> simp [e, trunc_zero, trunc_one]

/-- the transformer of an arm whose coordinates are columns of the data -/
theorem transform_good {n k : Nat} (a : ArmSpec ℝ) (ha : ∀ i ∈ a.coords, i < k) {d : ExpData (Cell ℝ)} (h : GoodData k (.int 0) (.int 1) n d) :
    ∃ t, Paper.transform a d = .ok t ∧ t.nUnits = d.nUnits ∧ GoodData a.coords.length (.int 0) (.int 1) n t := by
  obtain ⟨us, rfl, hn, hu⟩ := h
  refine ⟨_, coordMask_nat k _ a.coords _ _ ha, by simp [Obs.dataset, ExpData.new, Arr.len], us.map fun u => ⟨ExpData.gather a.coords u.z, u.x, u.y⟩, ?_, by simpa using hn, ?_⟩
  · simp [Obs.dataset, Function.comp_def]
  · intro u hu'
    obtain ⟨u, hu2, rfl⟩ := List.mem_map.1 hu'
    refine ⟨?_, (hu u hu2).2⟩
    have hz := (hu u hu2).1
    simp only [ExpData.gather]
    have : a.coords.filterMap (fun i => u.z[i]?) = a.coords.map fun i => u.z.getD i (.int 0) := by
      rw [← List.filterMap_eq_map]
      apply List.filterMap_congr
      intro i hi
      have : i < u.z.length := by rw [hz]; exact ha i hi
      simp [this]
    rw [this, List.length_map]

/-! ## The arms -/

/-- an arm that uses some of the `k` columns, at a positive cost -/
structure GoodSpec (k : Nat) (a : ArmSpec ℝ) : Prop where
  coords : ∀ i ∈ a.coords, i < k
  dim : a.nFeatures = a.coords.length
  pos : 1 ≤ a.nFeatures
  cost : 0 < a.cost

theorem totalDim_eq (zDim vDim : List Nat) (M : Nat) :
    vDim.getD 0 0 + totalDim zDim vDim M = (zDim.take (M + 1)).sum + (vDim.take (M + 1)).sum := by
  unfold totalDim
  induction M with
  | zero =>
    rw [sum_take_succ, sum_take_succ]
    simp; omega
  | succ k ih =>
    rw [sum_take_succ zDim (k + 1), sum_take_succ vDim (k + 1), List.range_succ, List.map_append, List.sum_append]
    simp only [List.map_cons, List.map_nil, List.sum_cons, List.sum_nil]
    omega

theorem segment_lt {off : Nat} {dims : List Nat} {i j : Nat} (h : j ∈ segment off dims i) : j < off + dims.sum := by
  unfold Paper.segment at h
  rw [List.mem_range'_1] at h
  have e := sum_take_succ dims i
  have : (dims.take (i + 1)).sum ≤ dims.sum := by
    conv_rhs => rw [← List.take_append_drop (i + 1) dims, List.sum_append]
    omega
  omega

theorem choiceCoords_mem {z v : Nat → List Nat} {c : List Bool} {i j : Nat} (h : j ∈ choiceCoords z v i c) : ∃ l, j ∈ z l ∨ j ∈ v l := by
  induction c generalizing i with
  | nil => simp [choiceCoords] at h
  | cons b c ih =>
    simp only [choiceCoords, List.mem_append] at h
    rcases h with h | h
    · cases b
      · exact ⟨i, Or.inr h⟩
      · exact ⟨i, Or.inl h⟩
    · exact ih h

theorem choiceCost_pos {zc vc : ℝ} (hz : 0 < zc) (hv : 0 < vc) {c : List Bool} (hc : c ≠ []) : 0 < choiceCost zc vc c := by
  unfold choiceCost
  have : ∀ c : List Bool, 0 ≤ (c.map fun b => if b then zc else vc).sum := by
    intro c
    apply List.sum_nonneg
    intro x hx
    obtain ⟨b, -, rfl⟩ := List.mem_map.1 hx
    split <;> linarith
  cases c with
  | nil => exact absurd rfl hc
  | cons b c =>
    rw [List.map_cons, List.sum_cons]
    have := this c
    split <;> linarith

theorem specs_good {zDim vDim : List Nat} {zCost vCost z0Cost : ℝ} {k : Nat} {l : ℝ} {units : Nat} (h : GoodArgs zDim vDim zCost vCost z0Cost k l units)
    (latex : Bool) : ∃ specs, armList zDim vDim zCost vCost z0Cost k latex = .ok specs ∧ specs.length = 1 + 2 ^ k ∧
      ∀ a ∈ specs, GoodSpec (totalDim zDim vDim k) a := by
  have hM := h.paths
  have hz := h.zLen
  have hv := h.vLen
  refine ⟨_, armList_ok zDim vDim zCost vCost z0Cost k latex hM (by omega) (by omega), by simp [choices_length]; omega, ?_⟩
  have htot : totalDim zDim vDim k = zDim.sum + vDim.sum := by
    have := totalDim_eq zDim vDim k
    rwa [h.v0, List.take_of_length_le (by omega), List.take_of_length_le (by omega), Nat.zero_add] at this
  have zpos : ∀ i, i ≤ k → 1 ≤ zDim.getD i 0 := by
    intro i hi
    rw [List.getD_eq_getElem _ _ (by omega)]
    exact h.zPos _ (List.getElem_mem _)
  have vpos : ∀ i, 1 ≤ i → i ≤ k → 1 ≤ vDim.getD i 0 := by
    intro i h1 hi
    rw [List.getD_eq_getElem _ _ (by omega)]
    apply h.vPos
    obtain ⟨j, rfl⟩ : ∃ j, i = j + 1 := ⟨i - 1, by omega⟩
    rw [← List.getElem_tail (by simp; omega)]
    exact List.getElem_mem _
  intro a ha
  rw [List.mem_cons, List.mem_map] at ha
  rcases ha with rfl | ⟨c, hc, rfl⟩
  · refine ⟨fun i hi => ?_, by simp [Paper.segment], zpos 0 (by omega), h.z0Cost⟩
    have := segment_lt hi
    omega
  · rw [mem_choices] at hc
    refine ⟨fun i hi => ?_, rfl, ?_, choiceCost_pos h.zCost h.vCost (by rintro rfl; simp at hc; omega)⟩
    · obtain ⟨j, hj | hj⟩ := choiceCoords_mem hi
      · have := segment_lt hj; omega
      · have := segment_lt hj; omega
    · cases c with
      | nil => simp at hc; omega
      | cons b c =>
        simp only [choiceCoords, List.length_append]
        have h1 : 1 ≤ (if b = true then segment 0 zDim 1 else segment zDim.sum vDim 1).length := by
          split
          · simpa [Paper.segment] using zpos 1 hM
          · simpa [Paper.segment] using vpos 1 le_rfl hM
        omega

/-! ## The source -/

/-- an SCM from which any positive number of units can be drawn -/
def GoodSource (k : Nat) (scm : SCM String ℝ W) : Prop := ∀ n, 1 ≤ n → ∀ w, ∃ smp w', scm.generate n w = (.ok smp, w') ∧ GoodSample n k smp

theorem goodSource51 {R : Type} {r : Noise W ℝ} (hr : GoodNoise r) (g : Gens R W) {zDim vDim : List Nat} {k : Nat} (hM : 1 ≤ k) (hz : k < zDim.length)
    (hv : k < vDim.length) {fuel : Nat} {s0 s1 : R × W} {S : Setup} (hsetup : setup g (strength51 g) zDim vDim k fuel s0 = some (.ok S, s1)) :
    ∃ scm, Paper.scm k (cpds51 r S k) = .ok scm ∧ GoodSource (totalDim zDim vDim k) scm := by
  have key := C73_generates r hr g (strength51 g) (fun s => ⟨_, _, rfl⟩) zDim vDim k hM hz hv fuel s0 s1 S hsetup
  obtain ⟨scm, e, -⟩ := key 1 le_rfl
  refine ⟨scm, e, fun n hn w => ?_⟩
  obtain ⟨scm', e', h⟩ := key n hn
  obtain rfl := Except.ok.inj (e.symm.trans e')
  obtain ⟨smp, w', h1, s, wAt, hq, -, hx, hy, hc, -⟩ := h w
  refine ⟨smp, w', h1, hc, ⟨_, hx.trans hq.x, by simp, ?_⟩, ⟨_, hy.trans hq.y, by simp⟩⟩
  intro x hx
  obtain ⟨j, -, rfl⟩ := List.mem_map.1 hx
  split <;> simp

theorem goodSource52 {R K F : Type} {r : Noise W ℝ} (hr : GoodNoise r) {lib : Nonlinear.GPLib K F ℝ} {pred : F → List ℝ → ℝ} (hl : RowWise lib pred) (kernel : K)
    (g : Gens R W) {zDim vDim : List Nat} {k : Nat} (hM : 1 ≤ k) (hz : zDim.length = k + 1) (hv : vDim.length = k + 1)
    (hpos : (∀ d ∈ zDim, 1 ≤ d) ∧ ∀ d ∈ vDim.tail, 1 ≤ d) {fuel : Nat} {s0 s1 : R × W} {S : Setup} {fns : Fns F}
    (hsetup : setup52 lib g kernel zDim vDim k fuel s0 = some (.ok (S, fns), s1)) :
    ∃ scm, Paper.scm k (cpds52 r lib S fns k) = .ok scm ∧ GoodSource (totalDim zDim vDim k) scm := by
  obtain ⟨fx, fz, fy, key⟩ := C74_generates r hr lib pred hl g kernel zDim vDim k hM hz hv hpos fuel s0 s1 S fns hsetup
  obtain ⟨scm, e, -⟩ := key 1 le_rfl
  refine ⟨scm, e, fun n hn w => ?_⟩
  obtain ⟨scm', e', h⟩ := key n hn
  obtain rfl := Except.ok.inj (e.symm.trans e')
  obtain ⟨smp, w', h1, s, wAt, hq, -, hx, hy, hc, -⟩ := h w
  refine ⟨smp, w', h1, hc, ⟨_, hx.trans hq.x, by simp, ?_⟩, ⟨_, hy.trans hq.y, by simp⟩⟩
  intro x hx
  obtain ⟨j, -, rfl⟩ := List.mem_map.1 hx
  split <;> simp

/-! ## The bandits -/

/-- object `i` is arm `i` of the list, in some state it can get into -/
def ArmIs (sk : Sklearn M P) (alg : CIAlgorithm) (subG : Fl ℝ) (specs : List (ArmSpec ℝ)) (i : Nat) (o : Obj M P) : Prop :=
  ∃ a, specs[i]? = some a ∧ o.cfg = (newArm sk alg subG a).cfg ∧ o.cost = .fin a.cost ∧ Fine (EtaInv a.nFeatures) a.nFeatures (.int 0) (.int 1) o.st

/-- and it has been updated -/
def ArmUsed (sk : Sklearn M P) (alg : CIAlgorithm) (subG : Fl ℝ) (specs : List (ArmSpec ℝ)) (i : Nat) (o : Obj M P) : Prop :=
  ArmIs sk alg subG specs i o ∧ Usable o.st

theorem armIs_new {sk : Sklearn M P} {alg : CIAlgorithm} {subG : Fl ℝ} {specs : List (ArmSpec ℝ)} {k : Nat} (hs : ∀ a ∈ specs, GoodSpec k a) (o : Obj M P)
    (i : Nat) (hi : i < specs.length) : ArmIs sk alg subG specs i (heapOf o (specs.map (newArm sk alg subG)) i) := by
  refine ⟨specs[i], by simp [hi], ?_, ?_, ?_, Or.inl ?_⟩
  · simp [heapOf, hi]
  · simp [heapOf, hi, newArm]
  · have := etaInv_new sk specs[i] (hs _ (List.getElem_mem hi)).pos
    simpa [heapOf, hi, newArm, Arm.init] using this
  · simp [heapOf, hi, newArm, Arm.init]

theorem armIs_reset {sk : Sklearn M P} {alg : CIAlgorithm} {subG : Fl ℝ} {specs : List (ArmSpec ℝ)} (lib : Libm ℝ) (rng : Rng W ℝ) {i : Nat} {o : Obj M P}
    (h : ArmIs sk alg subG specs i o) : ArmIs sk alg subG specs i ((objOps (etaOps sk) lib rng).reset o) := by
  obtain ⟨a, h1, h2, h3, h4, h5⟩ := h
  exact ⟨a, h1, h2, h3, etaInv_reset sk h4, Or.inl rfl⟩

theorem mul_pos_ne_nan {c : ℝ} (hc : 0 < c) {x : Fl ℝ} (hx : x ≠ .nan) : (Fl.fin c).mul x ≠ .nan := by
  cases x with
  | nan => exact absurd rfl hx
  | fin y => simp [Fl.mul]
  | pinf => simp [Fl.mul, Fl.infTimes, Fl.neg, hc, hc.not_gt]
  | ninf => simp [Fl.mul, Fl.infTimes, Fl.neg, hc, hc.not_gt]

/-- an update of an arm of the paper -/
theorem obj_update {sk : Sklearn M P} (hsk : GoodSklearn sk) (rng : Rng W ℝ) {alg : CIAlgorithm} {subG : Fl ℝ} {specs : List (ArmSpec ℝ)} {k : Nat}
    (hs : ∀ a ∈ specs, GoodSpec k a) (hc : ∀ a ∈ specs, SafeConfig (newArm sk alg subG a).cfg) {cfg : BanditCfg Nat ℝ} (h1 : cfg.arms = List.range specs.length)
    (h2 : cfg.errorProb = .fin (1 / 20)) {i : Nat} {d : ExpData (Cell ℝ)} {o : Obj M P} (hd : GoodData k (.int 0) (.int 1) 2 d)
    (ho : ArmIs sk alg subG specs i o) (w : W) :
    ∃ r o' w', (objOps (etaOps sk) realLib rng).update d (Bandit.level cfg) (o, w) = (.ok r, o', w') ∧ ArmUsed sk alg subG specs i o' ∧
      ssNumUnits o'.st = ssNumUnits o.st + d.nUnits := by
  obtain ⟨a, e1, e2, e3, e4⟩ := ho
  have ha := hs a (List.mem_of_getElem? e1)
  obtain ⟨t, ht, htn, hg⟩ := transform_good a ha.coords hd
  rw [← ha.dim] at hg
  have hi : i < specs.length := by
    by_contra hcon
    simp [List.getElem?_eq_none (not_lt.1 hcon)] at e1
  have hlev : ValidDelta (Bandit.level cfg) := by
    have hn : (1 : ℝ) ≤ specs.length := by
      have : 1 ≤ specs.length := by omega
      exact_mod_cast this
    refine ⟨1 / 20 / specs.length, ?_, by positivity, ?_⟩
    · have : (specs.length : ℝ) ≠ 0 := by linarith
      simp [Bandit.level, h1, h2, Fl.div, this]
    · rw [div_lt_one (by linarith)]; linarith
  obtain ⟨lo, hi', s', w', u1, u2, u3, u4, u5⟩ := ssUpdate_safe (etaOps_safe hsk a.nFeatures) (hc a (List.mem_of_getElem? e1)) rng d (Bandit.level cfg)
    ⟨⟨t, ht, hg⟩, hlev⟩ o.st e4 w
  have hn := ssUpdate_counts (cfg := (newArm sk alg subG a).cfg) (etaOps sk) rfl realLib rng ht hg hlev o.st e4.split w
  rw [u1] at hn
  rw [← e2] at u1
  exact ⟨(lo, hi'), { o with st := s' }, w', by simp [objOps, u1], ⟨⟨a, e1, e2, e3, u4⟩, u5⟩, hn.trans (by rw [htn])⟩

theorem obj_estimates {sk : Sklearn M P} (rng : Rng W ℝ) {alg : CIAlgorithm} {subG : Fl ℝ} {specs : List (ArmSpec ℝ)} {k : Nat}
    (hs : ∀ a ∈ specs, GoodSpec k a) (arms : List Nat) : HasEstimates (objOps (etaOps sk) realLib rng) arms (ArmUsed sk alg subG specs) := by
  rintro i hi o ⟨⟨a, e1, e2, e3, e4⟩, lo, up, v, f1, f2, f3, f4, f5⟩
  have ha := hs a (List.mem_of_getElem? e1)
  refine ⟨lo, up, v, f1, f2, ?_, ?_, ?_⟩ <;> simp only [objOps, e3] <;> exact mul_pos_ne_nan ha.cost ‹_›

theorem reliable {sk : Sklearn M P} (hsk : GoodSklearn sk) (rng : Rng W ℝ) {alg : CIAlgorithm} {subG : Fl ℝ} {specs : List (ArmSpec ℝ)} {k : Nat}
    (hs : ∀ a ∈ specs, GoodSpec k a) (hc : ∀ a ∈ specs, SafeConfig (newArm sk alg subG a).cfg) {scm : SCM String ℝ W} (hscm : GoodSource k scm)
    (choice choice2) {cfg : BanditCfg Nat ℝ} (h1 : cfg.arms = List.range specs.length) (h2 : cfg.errorProb = .fin (1 / 20)) (h3 : 2 ≤ cfg.unitsPerRound) :
    Reliable (envOf scm choice choice2) (objOps (etaOps sk) realLib rng) cfg (ArmIs sk alg subG specs) (ArmUsed sk alg subG specs)
      (GoodData k (.int 0) (.int 1) 2) where
  generate := by
    intro w
    obtain ⟨smp, w', e, hg⟩ := hscm cfg.unitsPerRound (by omega) w
    exact ⟨toData smp, w', by simp [envOf, generate, e], (toData_good hg).mono h3⟩
  update := by
    intro i hi d o w hd ho
    obtain ⟨r, o', w', e1, e2, -⟩ := obj_update hsk rng hs hc h1 h2 hd (ho.elim id And.left) w
    exact ⟨r, o', w', e1, e2⟩
  estimates := obj_estimates rng hs _

/-! ## Construction -/

/-- the sub-Gaussian scale of a dataset: the sum of three variances -/
theorem subGscale_eq {k n : Nat} {us : List (Obs ℝ)} (hk : 1 ≤ k) (hn : 1 ≤ n) (h : n ≤ us.length) (hu : ∀ u ∈ us, u.z.length = k) :
    subGscale (Obs.dataset k us) = .fin (pvar (us.map Obs.xv) + pvar (us.map Obs.zv).flatten + pvar (us.map Obs.yv)) := by
  obtain ⟨u, us', rfl⟩ : ∃ u us', us = u :: us' := by
    cases us with
    | nil => simp at h; omega
    | cons u us' => exact ⟨u, us', rfl⟩
  generalize hl : u :: us' = us at *
  have hne : us ≠ [] := by rw [← hl]; simp
  have e1 : npVar (us.map Obs.x) = .fin (pvar (us.map Obs.xv)) := by
    rw [← var_fin _ (by simpa using hne)]
    simp [npVar, Function.comp_def, Obs.xv]
  have e2 : npVar (us.map Obs.y) = .fin (pvar (us.map Obs.yv)) := by
    rw [← var_fin _ (by simpa using hne)]
    simp [npVar, Function.comp_def, Obs.yv]
  have e3 : npVar (us.map Obs.z).flatten = .fin (pvar (us.map Obs.zv).flatten) := by
    have hz : (us.map Obs.zv).flatten ≠ [] := by
      intro h0
      have := List.flatten_eq_nil_iff.1 h0 (Obs.zv u) (List.mem_map.2 ⟨u, by rw [← hl]; simp, rfl⟩)
      have hz := hu u (by rw [← hl]; simp)
      simp only [Obs.zv, List.map_eq_nil_iff] at this
      rw [this] at hz
      simp at hz; omega
    rw [← var_fin _ hz]
    simp [npVar, Function.comp_def, Obs.zv, List.map_flatten]
  simp only [subGscale, Obs.dataset, ExpData.new, covCells, Option.getD_some, e1, e2, e3, Fl.add]

/-- what `generate_example_from_cpd` returns -/
structure Built (sk : Sklearn M P) (alg : CIAlgorithm) (zDim vDim : List Nat) (zCost vCost z0Cost : ℝ) (k : Nat) (l : ℝ) (units : Nat) (latex : Bool)
    (scm : SCM String ℝ W) (subG : Fl ℝ) (specs : List (ArmSpec ℝ)) (ex : Example W M P) : Prop where
  scm_eq : ex.scm = scm
  specs_eq : armList zDim vDim zCost vCost z0Cost k latex = .ok specs
  arms_eq : ex.arms = specs.map (newArm sk alg subG)
  lucb_eq : ex.lucb = ⟨List.range specs.length, .fin (1 / 20), .fin 0, none, some (.fin l), units⟩
  se_eq : ex.se = ⟨List.range specs.length, .fin (1 / 20), .fin 0, none, some (.fin l), units⟩
  uniform_eq : ex.uniform = ⟨List.range specs.length, .fin (1 / 20), .fin 0, some (.fin (1 / 20)), some (.fin l), units⟩

theorem exampleFromCpd_ok (sk : Sklearn M P) (alg : CIAlgorithm) {zDim vDim : List Nat} {zCost vCost z0Cost : ℝ} {k : Nat} {l : ℝ} {units : Nat}
    (h : GoodArgs zDim vDim zCost vCost z0Cost k l units) (latex : Bool) {cpds : Dict String (CPD ℝ W)} {scm : SCM String ℝ W} (hscm : Paper.scm k cpds = .ok scm)
    (hsrc : GoodSource (totalDim zDim vDim k) scm) (w : W) :
    ∃ ex smp w' specs, exampleFromCpd sk zDim vDim zCost vCost z0Cost k cpds (.fin l) units latex alg w = (.ok ex, w') ∧
      scm.generate 1000 w = (.ok smp, w') ∧ GoodSample 1000 (totalDim zDim vDim k) smp ∧
      Built sk alg zDim vDim zCost vCost z0Cost k l units latex scm (subGscale (toData smp)) specs ex ∧ specs.length = 1 + 2 ^ k ∧
      ∀ a ∈ specs, GoodSpec (totalDim zDim vDim k) a := by
  obtain ⟨specs, e1, e2, e3⟩ := specs_good h latex
  obtain ⟨smp, w', e4, e5⟩ := hsrc 1000 (by omega) w
  have c0 : (Fl.fin (0 : ℝ)).lt (.fin (1 / 20)) = true := by simp [Fl.lt]
  have c1 : (Fl.fin (1 / 20 : ℝ)).lt (.fin 1) = true := by norm_num [Fl.lt]
  have c2 : (Fl.fin (0 : ℝ)).lt (.fin 0) = false := by simp [Fl.lt]
  refine ⟨⟨scm, specs.map (newArm sk alg (subGscale (toData smp))), ⟨List.range specs.length, .fin (1 / 20), .fin 0, none, some (.fin l), units⟩,
    ⟨List.range specs.length, .fin (1 / 20), .fin 0, none, some (.fin l), units⟩,
    ⟨List.range specs.length, .fin (1 / 20), .fin 0, some (.fin (1 / 20)), some (.fin l), units⟩⟩, smp, w', specs, ?_, e4, e5,
    ⟨rfl, e1, rfl, rfl, rfl, rfl⟩, e2, e3⟩
  unfold exampleFromCpd
  simp only [Py.bind_apply, Py.lift_apply, Py.pure_apply, hscm, e1, generate, e4, Bandit.construct, c0, c1, c2, Fl.isInf, List.length_map, Bool.and_self,
    Bool.not_true, Bool.false_eq_true, if_false]

/-! ## Runs -/

theorem ready_iff {New Old : Nat → Obj M P → Prop} (hN : ∀ i o, Old i o → New i o) {arms : List Nat} {s : (Nat → Obj M P) × W} :
    Bandit.Ready New Old arms [] s ↔ ∀ a ∈ arms, New a (s.1 a) := by
  constructor
  · intro h a ha
    exact (h a ha).1.elim id (hN _ _)
  · intro h a ha
    exact ⟨Or.inl (h a ha), fun hm => by simp at hm⟩

/-- everything that is needed to run the bandits of an example -/
structure Runnable (sk : Sklearn M P) (alg : CIAlgorithm) (subG : Fl ℝ) (specs : List (ArmSpec ℝ)) (k : Nat) (l : ℝ) (units : Nat) (ex : Example W M P) : Prop where
  skl : GoodSklearn sk
  arms_eq : ex.arms = specs.map (newArm sk alg subG)
  two : 2 ≤ specs.length
  good : ∀ a ∈ specs, GoodSpec k a
  cfg : ∀ a ∈ specs, SafeConfig (newArm sk alg subG a).cfg
  source : GoodSource k ex.scm
  lim : 0 ≤ l
  un : 2 ≤ units
  lucb_eq : ex.lucb = ⟨List.range specs.length, .fin (1 / 20), .fin 0, none, some (.fin l), units⟩
  se_eq : ex.se = ⟨List.range specs.length, .fin (1 / 20), .fin 0, none, some (.fin l), units⟩
  uniform_eq : ex.uniform = ⟨List.range specs.length, .fin (1 / 20), .fin 0, some (.fin (1 / 20)), some (.fin l), units⟩

variable {sk : Sklearn M P} {alg : CIAlgorithm} {subG : Fl ℝ} {specs : List (ArmSpec ℝ)} {k : Nat} {l : ℝ} {units : Nat} {ex : Example W M P}

theorem Runnable.reliable (h : Runnable sk alg subG specs k l units ex) (rng : Rng W ℝ) (choice choice2) (conf : Option (Fl ℝ)) :
    Reliable (envOf ex.scm choice choice2) (objOps (etaOps sk) realLib rng) ⟨List.range specs.length, .fin (1 / 20), .fin 0, conf, some (.fin l), units⟩
      (ArmIs sk alg subG specs) (ArmUsed sk alg subG specs) (GoodData k (.int 0) (.int 1) 2) :=
  PaperBandits.reliable h.skl rng h.good h.cfg h.source choice choice2 rfl rfl h.un

/-- every call leaves the arms in states from which one can go on -/
theorem Runnable.exec (h : Runnable sk alg subG specs k l units ex) (rng : Rng W ℝ) (calls : List (BanditCall Nat W (Cell ℝ) ℝ))
    (hc : ∀ c ∈ calls, ExperimentCall ex c) (s : (Nat → Obj M P) × W) (hs : ∀ a ∈ List.range specs.length, ArmIs sk alg subG specs a (s.1 a)) :
    ∀ a ∈ List.range specs.length, ArmIs sk alg subG specs a ((BanditCall.exec (objOps (etaOps sk) realLib rng) calls s).1 a) := by
  induction calls generalizing s with
  | nil => exact hs
  | cons c calls ih =>
    have hN : ∀ i o, ArmUsed sk alg subG specs i o → ArmIs sk alg subG specs i o := fun _ _ h => h.1
    have hL0 : (Fl.fin l).lt (.fin 0) = false := by simpa [Fl.lt] using h.lim
    have hreset : ∀ a ∈ List.range specs.length, ArmIs sk alg subG specs a ((List.range specs.length).foldl (fun hp a => Function.update hp a
        ((objOps (etaOps sk) realLib rng).reset (hp a))) s.1 a) := fun a ha =>
      Bandit.foldl_reset (objOps (etaOps sk) realLib rng) (fun a o => a ∈ List.range specs.length → ArmIs sk alg subG specs a o)
        (fun a o ho ha => armIs_reset realLib rng (ho ha)) _ s.1 hs a ha
    have htwo : 2 ≤ (List.range specs.length).length := by simpa using h.two
    have hrest := fun s hs => ih (fun c hc' => hc c (List.mem_cons_of_mem _ hc')) s hs
    cases hc c List.mem_cons_self with
    | uniform choice choice2 fuel =>
      rw [BanditCall.exec]
      apply hrest
      rw [h.uniform_eq]
      rcases Bandit.post_uniformRun (X := fun _ _ => False) (h.reliable rng choice choice2 (some (.fin (1 / 20)))) htwo rfl fuel s ((ready_iff hN).2 hs) with
        ⟨r, s', e, hq⟩ | ⟨_, _, _, hf⟩
      · rw [e]; exact (ready_iff hN).1 hq
      · exact hf.elim
    | lucb choice choice2 fuel =>
      rw [BanditCall.exec]
      apply hrest
      rw [h.lucb_eq]
      rcases Bandit.post_lucbRun (h.reliable rng choice choice2 none) htwo rfl fuel s ((ready_iff hN).2 hs) with ⟨r, s', e, hq⟩ | ⟨_, s', e, -, hq, -⟩
      · rw [e]; exact (ready_iff hN).1 hq
      · rw [e]; exact fun a ha => (hq a ha).1.elim id (hN _ _)
    | se choice choice2 fuel =>
      rw [BanditCall.exec]
      apply hrest
      rw [h.se_eq]
      rcases Bandit.post_seRun (X := fun _ _ => False) (h.reliable rng choice choice2 none) rfl hL0 fuel s ((ready_iff hN).2 hs) with
        ⟨r, s', e, hq⟩ | ⟨_, _, _, hf⟩
      · rw [e]; exact (ready_iff hN).1 hq
      · exact hf.elim
    | resetUniform =>
      rw [BanditCall.exec]
      apply hrest
      rw [h.uniform_eq]
      exact hreset
    | resetLucb =>
      rw [BanditCall.exec]
      apply hrest
      rw [h.lucb_eq]
      exact hreset
    | resetSe =>
      rw [BanditCall.exec]
      apply hrest
      rw [h.se_eq]
      exact hreset

/-! ## The first batch -/

theorem toData_nUnits {n k : Nat} {s : Sample ℝ} (h : GoodSample n k s) : (toData s).nUnits = n := by
  obtain ⟨⟨rows, e1, h1, h2⟩, -, -⟩ := h
  simp [toData, e1, h1, Cpds.flatten, Arr.len, ExpData.new]

/-- with fewer than ten units a nuisance parameter is not fitted -/
theorem newEta_few (sk : Sklearn M P) (a : ArmSpec ℝ) {f : ExpData (Cell ℝ)} (hf : GoodData a.nFeatures (.int 0) (.int 1) 1 f) (h9 : f.nUnits ≤ 9) :
    ∃ e, (etaOps sk).fit (newEta sk a) f = (.ok (), e) ∧ (etaOps sk).hasEnough e = .ok false := by
  obtain ⟨us, rfl, hn, hu⟩ := hf
  rw [Obs.dataset_nUnits] at h9
  have hbin : ∀ u ∈ us, u.Binary := fun u hu' => ((hu u hu').2).imp (fun e => by simp [Obs.xv, e, Cell.val]) (fun e => by simp [Obs.xv, e, Cell.val])
  have hfew : tooFew 5 (Obs.dataset a.nFeatures us).nUnits (us.map Obs.x) = true := by
    rw [Obs.tooFew_iff us hbin]
    have := Obs.treated_add_control us hbin
    omega
  unfold newEta
  cases a.eta with
  | frontDoor =>
    have := FrontDoor.fit_few sk.ridge us (FrontDoor.new sk.fdRidge0 a.nFeatures 5 (1 / 4) 10) hfew
    exact ⟨.inl { FrontDoor.new sk.fdRidge0 a.nFeatures 5 (1 / 4) 10 with recent := some (Obs.dataset a.nFeatures us) },
      by simp only [etaOps, sumEtaOps, FrontDoor.ops]; exact congrArg (fun x => (x.1, Sum.inl x.2)) this, rfl⟩
  | aipw =>
    have := AIPW.fit_few sk.ridge sk.logistic us (AIPW.new a.nFeatures sk.ridge0 sk.logistic0 5 (1 / 4)) hfew
    exact ⟨.inr { AIPW.new a.nFeatures sk.ridge0 sk.logistic0 5 (1 / 4) with recent := some (Obs.dataset a.nFeatures us) },
      by simp only [etaOps, sumEtaOps, AIPW.ops]; exact congrArg (fun x => (x.1, Sum.inr x.2)) this, rfl⟩

/-- the first update of an arm with at most 18 units leaves it without estimates -/
theorem first_few (sk : Sklearn M P) (alg : CIAlgorithm) (subG : Fl ℝ) (rng : Rng W ℝ) {k : Nat} {a : ArmSpec ℝ} (ha : GoodSpec k a) {d : ExpData (Cell ℝ)}
    (hd : GoodData k (.int 0) (.int 1) 2 d) (h18 : d.nUnits ≤ 18) {delta : Fl ℝ} (hδ : ValidDelta delta) (w : W) :
    ∃ s' w', ssUpdate (newArm sk alg subG a).cfg (etaOps sk) realLib rng d delta ((newArm sk alg subG a).st, w) = (.ok (.fin 0, .pinf), s', w') ∧
      s'.ci = (some (.fin 0), some .pinf) ∧ s'.varEst = some .pinf := by
  obtain ⟨t, ht, hs, hg⟩ := transform_good a ha.coords hd
  rw [← ha.dim, goodData_iff] at hg
  obtain ⟨g1, g2, g3, g4⟩ := hg
  obtain ⟨f0, f1, e, w0, -, k0, -, n0, -, u0, -⟩ := ExpData.kFold_halves t g1 (rng.perm t.nUnits w).1
  obtain ⟨e1, h1, h2⟩ := newEta_few sk a (f := f0) (goodData_iff.2 ⟨w0, g2.trans k0, by omega, fun p hp => g4 p (u0 p hp)⟩) (by omega)
  rw [ssUpdate_valid _ _ _ _ _ _ hδ]
  set s0 : ArmState (Eta M P) (Cell ℝ) ℝ := { (newArm sk alg subG a).st with numPulled := (newArm sk alg subG a).st.numPulled + 1, delta := some delta } with hs0
  have hadd : addData (newArm sk alg subG a).cfg.transform (newArm sk alg subG a).cfg.stable rng d (s0, w) =
      (.ok (), { s0 with split := some [f0, f1] }, (rng.perm t.nUnits w).2) := by
    have hfold : transformAndFold (E := Eta M P) (newArm sk alg subG a).cfg.transform rng d (s0, w) = (.ok [f0, f1], s0, (rng.perm t.nUnits w).2) := by
      simp only [transformAndFold, newArm, ht, e]
    unfold addData
    rw [Py.bind_ok hfold, Py.bind_ok (Py.get_apply _)]
    rfl
  rw [Py.bind_ok hadd]
  exact ⟨_, _, estimate_fwd (.few [f0, f1] f0 e1 rfl rfl h1 h2) _, rfl, rfl⟩

end PaperBandits
end Verif
