import Verif.Model.Section5
import Verif.Model.ParametersReal
import Verif.Model.BanditArms

/-!
# Model of the arms and bandits built by `generate_example_from_cpd` (`causal_effect_bandits/paper_utils.py` 549-618), and of
`get_section_5_1_example` and `get_section_5_2_example` (335-432)

An arm object carries its configuration and its state, so that one list can hold different arms; the nuisance parameter of an
arm is an `FrontDoorLinearFiniteZ` or an `AIPWLinearLogistic`.  The `i`-th object of `arm_list` is named `i`.  Exact
arithmetic over the reals.
-/

namespace Verif

/-- A `SampleSplittingArm` object (arms.py 139-185): its fixed attributes and its state. -/
structure ArmObj (E β α : Type) where
  name : String
  cfg : SSConfig β α
  cost : Fl α
  st : ArmState E β α

/-- The methods of `SampleSplittingArm` objects (arms.py 139-291). -/
def objOps {E β α W : Type} [Field α] [LinearOrder α] (ops : EtaOps E β α) (lib : Libm α) (rng : Rng W α) :
    ArmOps (ArmObj E β α) W β α where
  update := fun d delta (o, w) =>
    ((Arm.ssUpdate o.cfg ops lib rng d delta (o.st, w)).1,
      { o with st := (Arm.ssUpdate o.cfg ops lib rng d delta (o.st, w)).2.1 }, (Arm.ssUpdate o.cfg ops lib rng d delta (o.st, w)).2.2)
  ci := fun o => o.st.ci
  varEst := fun o => o.st.varEst
  cost := fun o => o.cost
  numUnits := fun o => Arm.ssNumUnits o.st
  reset := fun o => { o with st := Arm.reset ops o.st }

/-- Method calls on a nuisance parameter of one of two classes. -/
def sumEtaOps {E F β α : Type} (a : EtaOps E β α) (b : EtaOps F β α) : EtaOps (E ⊕ F) β α where
  fit := fun s d => match s with
    | .inl s => ((a.fit s d).1, .inl (a.fit s d).2)
    | .inr s => ((b.fit s d).1, .inr (b.fit s d).2)
  hasEnough := fun s => match s with
    | .inl s => a.hasEnough s
    | .inr s => b.hasEnough s
  score := fun s d => match s with
    | .inl s => ((a.score s d).1, .inl (a.score s d).2)
    | .inr s => ((b.score s d).1, .inr (b.score s d).2)
  csWidth := fun s => match s with
    | .inl s => a.csWidth s
    | .inr s => b.csWidth s
  reset := fun s => match s with
    | .inl s => .inl (a.reset s)
    | .inr s => .inr (b.reset s)

namespace PaperBandits
open Paper Section5

variable {W M P : Type}

/-- The sklearn estimators the arms of the paper use: `Ridge` and `LogisticRegression`, and the three newly made ones (parameters.py
490-497, 587). -/
structure Sklearn (M P : Type) where
  ridge : Predictor M ℝ
  logistic : Predictor P ℝ
  /-- `Ridge(alpha=1.0, fit_intercept=True)` -/
  fdRidge0 : M
  /-- `Ridge(alpha=1.0, fit_intercept=False)` -/
  ridge0 : M
  /-- `LogisticRegression(warm_start=True)` -/
  logistic0 : P

/-- The nuisance parameters of the paper's arms. -/
abbrev Eta (M P : Type) := FrontDoor M ℝ ⊕ AIPW M P ℝ

/-- Their methods. -/
noncomputable def etaOps (sk : Sklearn M P) : EtaOps (Eta M P) (Cell ℝ) ℝ :=
  sumEtaOps (FrontDoor.ops sk.ridge sk.fdRidge0) (AIPW.ops sk.ridge sk.logistic)

/-- The paper's arm objects. -/
abbrev Obj (M P : Type) := ArmObj (Eta M P) (Cell ℝ) ℝ

/-- `ExpData(cov, exp, rsp)` (scm.py 101-105) as a dataset of integers and floats: the treatment is drawn by
`np.random.binomial` and integer valued, everything else is a float. -/
noncomputable def toData (s : Sample ℝ) : ExpData (Cell ℝ) :=
  ExpData.new
    (some (match s.cov with
      | .d1 xs => .d1 (xs.map .flt)
      | .d2 k rows => .d2 k (rows.map (·.map .flt))))
    (some ((Cpds.flatten s.exp).map fun x => .int (trunc x)))
    (some ((Cpds.flatten s.rsp).map .flt))

/-- `scm_gen.generate(n)`. -/
noncomputable def generate (scm : SCM String ℝ W) (n : Nat) : Py W (ExpData (Cell ℝ)) := fun w =>
  match scm.generate n w with
  | (.error e, w') => (.error e, w')
  | (.ok s, w') => (.ok (toData s), w')

/-- `np.var` of all entries of an array. -/
noncomputable def npVar (xs : List (Cell ℝ)) : Fl ℝ := Fl.var (xs.map fun c => .fin c.val)

/-- The entries of `d.cov`. -/
def covCells (d : ExpData (Cell ℝ)) : List (Cell ℝ) :=
  match d.cov with
  | none => []
  | some (.d1 xs) => xs
  | some (.d2 _ rows) => rows.flatten

/-- paper_utils.py 552 `sub_gscale`. -/
noncomputable def subGscale (d : ExpData (Cell ℝ)) : Fl ℝ :=
  ((npVar (d.exp.getD [])).add (npVar (covCells d))).add (npVar (d.rsp.getD []))

/-- paper_utils.py 557-569, 576-587: the nuisance parameter of an arm. -/
noncomputable def newEta (sk : Sklearn M P) (a : ArmSpec ℝ) : Eta M P :=
  match a.eta with
  | .frontDoor => .inl (FrontDoor.new sk.fdRidge0 a.nFeatures 5 (1 / 4) 10)            -- 559-563; parameters.py 569
  | .aipw => .inr (AIPW.new a.nFeatures sk.ridge0 sk.logistic0 5 (1 / 4))              -- 578-579

/-- paper_utils.py 556-571, 575-587: an arm. -/
noncomputable def newArm (sk : Sklearn M P) (alg : CIAlgorithm) (subG : Fl ℝ) (a : ArmSpec ℝ) : Obj M P where
  name := a.name
  cfg :=
    { transform := Paper.transform a
      alg := alg
      stable := true                                                                   -- arms.py 171
      subG := subG
      etaSubG := .fin 1                                                                -- arms.py 173
      tauBound := .fin 2
      burnIn := .fin 1000
      rho := .fin 1 }
  cost := .fin a.cost
  st := Arm.init (newEta sk a)

/-- What `generate_example_from_cpd` returns; the bandits refer to the arm objects by their position in `arms`. -/
structure Example (W M P : Type) where
  scm : SCM String ℝ W
  arms : List (Obj M P)
  lucb : BanditCfg Nat ℝ
  se : BanditCfg Nat ℝ
  uniform : BanditCfg Nat ℝ

/-- paper_utils.py 435-618 `generate_example_from_cpd`; `limit` is `sample_limit`. -/
noncomputable def exampleFromCpd (sk : Sklearn M P) (zDim vDim : List Nat) (zCost vCost z0Cost : ℝ) (k : Nat)
    (cpds : Dict String (CPD ℝ W)) (limit : Fl ℝ) (units : Nat) (latex : Bool) (alg : CIAlgorithm) : Py W (Example W M P) := do
  let scm ← Py.lift (Paper.scm k cpds)                                                  -- 471-501
  let specs ← Py.lift (armList zDim vDim zCost vCost z0Cost k latex)                    -- 503-540
  let d ← generate scm 1000                                                             -- 551
  let arms := specs.map (newArm sk alg (subGscale d))                                   -- 552-587
  let ids := List.range arms.length
  let lucb ← Py.lift (Bandit.construct ids (some (.fin (1 / 20))) (some (.fin 0)) none (some limit) units)       -- 590-596
  let se ← Py.lift (Bandit.construct ids (some (.fin (1 / 20))) (some (.fin 0)) none (some limit) units)         -- 597-603
  let uni ← Py.lift (Bandit.construct ids (some (.fin (1 / 20))) (some (.fin 0)) (some (.fin (1 / 20))) (some limit) units)  -- 604-610
  return ⟨scm, arms, lucb, se, uni⟩

/-- paper_utils.py 335-382 `get_section_5_1_example`; `none` if the selection of the effect is still running after `fuel`
iterations.  `s` are the states of the generator made from the seed and of the global generator. -/
noncomputable def example51 {R : Type} (r : Noise W ℝ) (g : Gens R W) (sk : Sklearn M P) (zDim vDim : List Nat) (zCost vCost z0Cost : ℝ) (k : Nat)
    (limit : Fl ℝ) (units : Nat) (latex : Bool) (fuel : Nat) (s : R × W) : Option (Except PyErr (Example W M P) × W) :=
  match setup g (strength51 g) zDim vDim k fuel s with
  | none => none
  | some (.error e, s') => some (.error e, s'.2)
  | some (.ok S, s') => some (exampleFromCpd sk zDim vDim zCost vCost z0Cost k (cpds51 r S k) limit units latex .finiteSample s'.2)

/-- paper_utils.py 385-432 `get_section_5_2_example`. -/
noncomputable def example52 {R K F : Type} (r : Noise W ℝ) (lib : Nonlinear.GPLib K F ℝ) (kernel : K) (g : Gens R W) (sk : Sklearn M P)
    (zDim vDim : List Nat) (zCost vCost z0Cost : ℝ) (k : Nat) (limit : Fl ℝ) (units : Nat) (latex : Bool) (fuel : Nat) (s : R × W) :
    Option (Except PyErr (Example W M P) × W) :=
  match setup52 lib g kernel zDim vDim k fuel s with
  | none => none
  | some (.error e, s') => some (.error e, s'.2)
  | some (.ok (S, fns), s') => some (exampleFromCpd sk zDim vDim zCost vCost z0Cost k (cpds52 r lib S fns k) limit units latex .clt s'.2)

/-- The heap after the construction (names that are not positions of an arm are mapped to an arbitrary object). -/
def heapOf (o : Obj M P) (arms : List (Obj M P)) : Nat → Obj M P := fun i => arms.getD i o

/-- `scm_gen` as the data generator of the bandits, with arbitrary choices of `np.random.choice`. -/
noncomputable def envOf (scm : SCM String ℝ W)
    (choice : (n : Nat) → 0 < n → W → Fin n × W) (choice2 : (n : Nat) → 2 ≤ n → W → { p : Fin n × Fin n // p.1 ≠ p.2 } × W) :
    BanditEnv W (Cell ℝ) where
  generate := generate scm
  choice := choice
  choice2 := choice2

end PaperBandits
end Verif
