import Verif.Model.Py
import Verif.Model.Data
import Mathlib.Logic.Function.Basic

/-!
# Model of `causal_effect_bandits/bandits.py`

* `I` names arm *objects* (two list entries may be the same object), `S` is the state of an arm object, the heap is
  `I → S`; the arms are arbitrary objects offering the interface `ArmOps`.
* `W` is the rest of the world: the global random generator and whatever the data generator reads.
* Histories are dicts keyed by arm objects; they are local variables of `run`, so they are lost when it raises, while
  the heap keeps every change made before the exception.
* `while` loops take a fuel; the outcome `ok none` means "still running after that many rounds".

Simplifications: `units_per_round` is a natural number; the list of arms is not changed after construction; `error_prob`
and `error_tol` are not `None` in a constructed object (the constructor would have raised `TypeError`).
-/

namespace Verif

/-- The interface of `VarianceEstimatorArm` used by the bandits (arms.py 64-130). -/
structure ArmOps (S W β α : Type) where
  update : ExpData β → Fl α → Py (S × W) (Fl α × Fl α)
  ci : S → Option (Fl α) × Option (Fl α)
  varEst : S → Option (Fl α)
  cost : S → Fl α
  numUnits : S → Nat
  reset : S → S

/-- The outside world: `DataGenerator.generate(n)` and `np.random.choice` of one element / of two distinct ones. -/
structure BanditEnv (W β : Type) where
  generate : Nat → Py W (ExpData β)
  choice : (n : Nat) → 0 < n → W → Fin n × W
  choice2 : (n : Nat) → 2 ≤ n → W → { p : Fin n × Fin n // p.1 ≠ p.2 } × W

/-- bandits.py 113-133: the attributes of a constructed algorithm. -/
structure BanditCfg (I α : Type) where
  arms : List I
  errorProb : Fl α
  errorTol : Fl α
  confidence : Option (Fl α)
  sampleLimit : Option (Fl α)
  unitsPerRound : Nat

/-- The local variables that record the history (bandits.py 224-230). -/
structure Hist (I α : Type) where
  lcb : I → List (Fl α)
  ucb : I → List (Fl α)
  var : I → List (Fl α)
  samples : I → List Nat
  cum : List Nat
  total : Nat

/-- bandits.py 29-54 `BanditData`. -/
structure BanditData (I α : Type) where
  lcb : I → List (Fl α)
  ucb : I → List (Fl α)
  var : I → List (Fl α)
  samples : I → List Nat
  cum : List Nat
  best : List I

/-- `while True: …` with a bound on the number of rounds: `inl` continues, `inr` leaves the loop. -/
def Py.loop {σ H R : Type} (body : H → Py σ (H ⊕ R)) : Nat → H → Py σ (Option R)
  | 0, _ => pure none
  | n + 1, h => do
    let r ← body h
    match r with
    | .inl h' => Py.loop body n h'
    | .inr r => pure (some r)

/-- `for a in l: …`, threading local variables. -/
def Py.forEach {σ I H : Type} (f : I → H → Py σ H) : List I → H → Py σ H
  | [], h => pure h
  | a :: l, h => do
    let h' ← f a h
    Py.forEach f l h'

namespace Bandit
variable {I S W β α : Type}

/-- The empty history (bandits.py 224-230, 325-329, 477-482). -/
def Hist.empty : Hist I α where
  lcb := fun _ => []
  ucb := fun _ => []
  var := fun _ => []
  samples := fun _ => []
  cum := []
  total := 0

/-- `BanditData(lcb_by_arm, …, best)`. -/
def Hist.done (h : Hist I α) (best : List I) : BanditData I α where
  lcb := h.lcb
  ucb := h.ucb
  var := h.var
  samples := h.samples
  cum := h.cum
  best := best

section Construct
variable [Field α] [LinearOrder α]

/-- bandits.py 103-133 `BAIBanditAlgorithm.__init__`; `None` is possible for every float argument.
Comparing `None` with a float, and `np.isinf(None)`, raise `TypeError`. -/
def construct (arms : List I) (errorProb errorTol confidence sampleLimit : Option (Fl α)) (units : Nat) :
    Except PyErr (BanditCfg I α) :=
  match errorProb with
  | none => .error .typeError
  | some p =>
    if !((Fl.fin 0).lt p && p.lt (Fl.fin 1)) then .error .valueError                    -- 116-118
    else match errorTol with
    | none => .error .typeError
    | some t =>
      if t.lt (Fl.fin 0) then .error .valueError                                        -- 120-121
      else match confidence with
      | none =>
        match sampleLimit with
        | none => .error .typeError                                                     -- 123: np.isinf(None)
        | some l =>
          if l.isInf then .error .valueError                                            -- 123-125
          else .ok ⟨arms, p, t, none, some l, units⟩
      | some c =>
        if !((Fl.fin 0).lt c && c.lt (Fl.fin 1)) then .error .valueError                -- 126-129
        else .ok ⟨arms, p, t, some c, sampleLimit, units⟩

end Construct

/-- bandits.py 173-183 `_select_arms_with_mask` (its assertion always holds: masks have one entry per arm). -/
def selectMask (arms : List I) (mask : List Bool) : List I := ExpData.filterMask mask arms

/-- bandits.py 135-138 `BAIBanditAlgorithm.reset`. -/
def reset [DecidableEq I] (ops : ArmOps S W β α) (cfg : BanditCfg I α) (heap : I → S) : I → S :=
  cfg.arms.foldl (fun h a => Function.update h a (ops.reset (h a))) heap

variable [Field α] [LinearOrder α]

/-- `cost * x`, where `x` may be `None`. -/
def costTimes (c : Fl α) : Option (Fl α) → Except PyErr (Fl α)
  | none => .error .typeError
  | some x => .ok (c.mul x)

/-- bandits.py 185-194 `collect_bounds`: lcbs, ucbs, variances. -/
def collectBounds (ops : ArmOps S W β α) (arms : List I) (heap : I → S) :
    Except PyErr (List (Fl α) × List (Fl α) × List (Fl α)) := do
  let ucbs ← arms.mapM fun a => costTimes (ops.cost (heap a)) (ops.ci (heap a)).2
  let lcbs ← arms.mapM fun a => costTimes (ops.cost (heap a)) (ops.ci (heap a)).1
  let vars ← arms.mapM fun a => costTimes (ops.cost (heap a)) (ops.varEst (heap a))
  return (lcbs, ucbs, vars)

/-- Array indexing by a position that is in range in the code. -/
def at? (l : List (Fl α)) (i : Nat) : Except PyErr (Fl α) :=
  match l[i]? with
  | none => .error .indexError
  | some x => .ok x

/-- bandits.py 157-171: the end condition as a function of the collected bounds. -/
def endCondition (arms : List I) (tol : Fl α) (lcbs ucbs vars : List (Fl α)) : Except PyErr (Bool × List I) :=
  if ucbs.any Fl.isInf then .ok (false, [])                                             -- 157-158
  else do
    let minVar ← Fl.pyMin vars                                                          -- 159
    if minVar.isNan then .ok (false, [])                                                -- 160-161
    else do
      let i ← Fl.argmin vars                                                            -- 164
      let remaining := lcbs.eraseIdx i                                                  -- 167-169
      let u ← at? ucbs i
      let m ← Fl.pyMin remaining
      match arms[i]? with
      | none => .error .indexError
      | some b => .ok (u.lt (m.sub tol), [b])                                           -- 170-171

/-- bandits.py 140-171 `_check_fixed_conf_end_condition`. -/
def checkEnd (ops : ArmOps S W β α) (cfg : BanditCfg I α) (heap : I → S) : Except PyErr (Bool × List I) := do
  let (lcbs, ucbs, vars) ← collectBounds ops cfg.arms heap
  endCondition cfg.arms cfg.errorTol lcbs ucbs vars

/-- `[v == min(var_ests) for v in var_ests]`; the minimum is not evaluated when there are no arms. -/
def minMask (vars : List (Fl α)) : Except PyErr (List Bool) :=
  match vars with
  | [] => .ok []
  | _ => do
    let m ← Fl.pyMin vars
    return vars.map (·.eq m)

/-- bandits.py 252-255, 344-347, 490-493: the arms with the lowest variance estimates. -/
def lowestVarArms (ops : ArmOps S W β α) (cfg : BanditCfg I α) (heap : I → S) : Except PyErr (List I) := do
  let (_, _, vars) ← collectBounds ops cfg.arms heap
  let mask ← minMask vars
  return selectMask cfg.arms mask

/-- `total_samples > self.sample_limit`. -/
def overLimit (cfg : BanditCfg I α) (total : Nat) : Except PyErr Bool :=
  match cfg.sampleLimit with
  | none => .error .typeError
  | some l => .ok (l.lt (.fin (total : α)))

/-- `self.error_prob / len(self._arms)` (evaluated only when there is an arm). -/
def level (cfg : BanditCfg I α) : Fl α := cfg.errorProb.div (.fin (cfg.arms.length : α))

variable [DecidableEq I]

/-- `arm.update(new_samples, …)`: run the method of the arm object. -/
def updateArm (ops : ArmOps S W β α) (a : I) (d : ExpData β) (δ : Fl α) : Py ((I → S) × W) Unit := fun (heap, w) =>
  ((ops.update d δ (heap a, w)).1.map fun _ => (), Function.update heap a (ops.update d δ (heap a, w)).2.1,
    (ops.update d δ (heap a, w)).2.2)

/-- `self._prob_model.generate(n)`. -/
def generate (env : BanditEnv W β) (n : Nat) : Py ((I → S) × W) (ExpData β) := fun (heap, w) =>
  ((env.generate n w).1, heap, (env.generate n w).2)

/-- `arm.get_num_units()` followed by `all_data[n_start:n_start + units]`. -/
def nextSlice (ops : ArmOps S W β α) (all : ExpData β) (u : Nat) (a : I) : Py ((I → S) × W) (ExpData β) := fun (heap, w) =>
  (all.slice (ops.numUnits (heap a)) (ops.numUnits (heap a) + u), heap, w)

/-- bandits.py 353-357 / 497-501: the samples for one arm. -/
def samplesFor (env : BanditEnv W β) (ops : ArmOps S W β α) (all : Option (ExpData β)) (u : Nat) (a : I) :
    Py ((I → S) × W) (ExpData β) :=
  match all with
  | none => generate env u
  | some d => nextSlice ops d u a

/-- Append `cost * ci` and `cost * var_est` of an arm to its histories, and `k` to its samples. -/
def record (ops : ArmOps S W β α) (k : I → Nat) (a : I) (h : Hist I α) : Py ((I → S) × W) (Hist I α) := fun (heap, w) =>
  (do
    let l ← costTimes (ops.cost (heap a)) (ops.ci (heap a)).1
    let u ← costTimes (ops.cost (heap a)) (ops.ci (heap a)).2
    let v ← costTimes (ops.cost (heap a)) (ops.varEst (heap a))
    return { h with
      lcb := Function.update h.lcb a (h.lcb a ++ [l])
      ucb := Function.update h.ucb a (h.ucb a ++ [u])
      var := Function.update h.var a (h.var a ++ [v])
      samples := Function.update h.samples a (h.samples a ++ [k a]) }, heap, w)

/-- bandits.py 241-246, 333-338: update one arm and record its outputs. -/
def updateRecord (ops : ArmOps S W β α) (cfg : BanditCfg I α) (d : ExpData β) (a : I) (h : Hist I α) :
    Py ((I → S) × W) (Hist I α) := do
  updateArm ops a d (level cfg)
  record ops (fun _ => cfg.unitsPerRound) a h

/-- `total_samples += n; cum_samples.append(total_samples)`. -/
def addSamples (n : Nat) (h : Hist I α) : Hist I α :=
  { h with total := h.total + n, cum := h.cum ++ [h.total + n] }

/-- bandits.py 233-238. -/
def uniformSamples (env : BanditEnv W β) (ops : ArmOps S W β α) (cfg : BanditCfg I α) (all : Option (ExpData β)) :
    Py ((I → S) × W) (ExpData β) :=
  match all with
  | none => generate env cfg.unitsPerRound
  | some d =>
    match cfg.arms with
    | [] => Py.raise .indexError                                                        -- 235: self._arms[0]
    | a :: _ => nextSlice ops d cfg.unitsPerRound a

/-- bandits.py 232-262: one round of `UniformAlgorithm.run`. -/
def uniformRound (env : BanditEnv W β) (ops : ArmOps S W β α) (cfg : BanditCfg I α) (all : Option (ExpData β))
    (h : Hist I α) : Py ((I → S) × W) (Hist I α ⊕ BanditData I α) := do
  let d ← uniformSamples env ops cfg all                                                -- 233-238
  let h ← Py.forEach (updateRecord ops cfg d) cfg.arms h                                -- 241-246
  let h := addSamples (cfg.arms.length * cfg.unitsPerRound) h                           -- 248-249
  let over ← Py.lift (overLimit cfg h.total)                                            -- 251
  let (heap, _) ← Py.get
  if over then
    let best ← Py.lift (lowestVarArms ops cfg heap)                                     -- 252-256
    return .inr (Hist.done h best)
  else
    let (ends, best) ← Py.lift (checkEnd ops cfg heap)                                  -- 259-262
    if ends then return .inr (Hist.done h best)
    else return .inl h

/-- bandits.py 200-265 `UniformAlgorithm.run`. -/
def uniformRun (env : BanditEnv W β) (ops : ArmOps S W β α) (cfg : BanditCfg I α) (all : Option (ExpData β))
    (fuel : Nat) : Py ((I → S) × W) (Option (BanditData I α)) :=
  Py.loop (uniformRound env ops cfg all) fuel Hist.empty

/-- `np.random.choice(self._arms, 2, replace=False)`. -/
def chooseTwo (env : BanditEnv W β) (arms : List I) : Py ((I → S) × W) (List I) := fun (heap, w) =>
  if h : 2 ≤ arms.length then
    (.ok [arms.get (env.choice2 arms.length h w).1.1.1, arms.get (env.choice2 arms.length h w).1.1.2], heap,
      (env.choice2 arms.length h w).2)
  else (.error .valueError, heap, w)

/-- `self._arms[np.random.choice(np.arange(num_arms)[mask])]`; `ValueError` if the mask is empty. -/
def chooseMasked (env : BanditEnv W β) (arms : List I) (mask : List Bool) : Py ((I → S) × W) I := fun (heap, w) =>
  if h : 0 < (selectMask arms mask).length then
    (.ok ((selectMask arms mask).get (env.choice _ h w).1), heap, (env.choice _ h w).2)
  else (.error .valueError, heap, w)

/-- bandits.py 381-413 `LUCBAlgorithm.select_arms`.  (The test `v is None` on line 391 never holds: `cost * None` has
raised before.) -/
def selectArms (env : BanditEnv W β) (ops : ArmOps S W β α) (cfg : BanditCfg I α) : Py ((I → S) × W) (List I) := do
  let (heap, _) ← Py.get
  let (lcbs, ucbs, vars) ← Py.lift (collectBounds ops cfg.arms heap)                    -- 390
  let lowest ← Py.lift (Fl.pyMin vars)                                                  -- 393
  if lowest.isNan then chooseTwo env cfg.arms                                           -- 394-398
  else
    let bestMask := vars.map (·.eq lowest)                                              -- 400
    let highUcb ← Py.lift (Fl.pyMax (ExpData.filterMask bestMask ucbs))                 -- 403
    let lowLcb ← Py.lift (Fl.pyMin (ExpData.filterMask (bestMask.map (!·)) lcbs))       -- 407
    let u ← chooseMasked env cfg.arms (ucbs.map (·.eq highUcb))                         -- 404, 411
    let l ← chooseMasked env cfg.arms (lcbs.map (·.eq lowLcb))                          -- 408, 412
    return [u, l]                                                                       -- 413

/-- bandits.py 352-358 / 496-502: fetch the samples for one arm and update it. -/
def pull (env : BanditEnv W β) (ops : ArmOps S W β α) (cfg : BanditCfg I α) (all : Option (ExpData β)) (a : I) (_ : Unit) :
    Py ((I → S) × W) Unit := do
  let d ← samplesFor env ops all cfg.unitsPerRound a
  updateArm ops a d (level cfg)

/-- bandits.py 342-376: one round of the loop of `LUCBAlgorithm.run`. -/
def lucbRound (env : BanditEnv W β) (ops : ArmOps S W β α) (cfg : BanditCfg I α) (all : Option (ExpData β))
    (h : Hist I α) : Py ((I → S) × W) (Hist I α ⊕ BanditData I α) := do
  let over ← Py.lift (overLimit cfg h.total)                                            -- 343
  if over then
    let (heap, _) ← Py.get
    let best ← Py.lift (lowestVarArms ops cfg heap)                                     -- 344-348
    return .inr (Hist.done h best)
  else
    let chosen ← selectArms env ops cfg                                                 -- 350
    Py.forEach (pull env ops cfg all) chosen ()                                         -- 352-358
    let h ← Py.forEach (record ops fun a => if a ∈ chosen then cfg.unitsPerRound else 0) cfg.arms h   -- 361-366
    let h := addSamples (2 * cfg.unitsPerRound) h                                       -- 368-369
    let (heap, _) ← Py.get
    let (ends, best) ← Py.lift (checkEnd ops cfg heap)                                  -- 373-376
    if ends then return .inr (Hist.done h best)
    else return .inl h

/-- bandits.py 319-322. -/
def lucbFirst (env : BanditEnv W β) (cfg : BanditCfg I α) (all : Option (ExpData β)) : Py ((I → S) × W) (ExpData β) :=
  match all with
  | none => generate env cfg.unitsPerRound
  | some d => Py.lift (d.slice 0 cfg.unitsPerRound)

/-- bandits.py 284-379 `LUCBAlgorithm.run`. -/
def lucbRun (env : BanditEnv W β) (ops : ArmOps S W β α) (cfg : BanditCfg I α) (all : Option (ExpData β))
    (fuel : Nat) : Py ((I → S) × W) (Option (BanditData I α)) := do
  let d ← lucbFirst env cfg all                                                         -- 319-322
  let h ← Py.forEach (updateRecord ops cfg d) cfg.arms Hist.empty                       -- 333-338
  Py.loop (lucbRound env ops cfg all) fuel (addSamples (cfg.arms.length * cfg.unitsPerRound) h)   -- 332, 340, 342

/-- `samples_by_arm[arm][-1] = n`. -/
def setLastSample (n : Nat) (a : I) (h : Hist I α) : Hist I α :=
  { h with samples := Function.update h.samples a ((h.samples a).dropLast ++ [n]) }

/-- `x[-1]` of a history list. -/
def lastOf (l : List (Fl α)) : Except PyErr (Fl α) :=
  match l.getLast? with
  | none => .error .indexError
  | some x => .ok x

/-- bandits.py 520-534: the candidates kept after a round. -/
def eliminate (h : Hist I α) (cands : List I) : Except PyErr (List I) := do
  let vars ← cands.mapM fun a => lastOf (h.var a)                                       -- 520
  let lowest ← Fl.pyMin vars                                                            -- 521
  let lowArms := ExpData.filterMask (vars.map (·.eq lowest)) cands                      -- 522
  let ucbs ← lowArms.mapM fun a => lastOf (h.ucb a)
  let lowestUcb ← Fl.pyMin ucbs                                                         -- 523-527
  let lcbs ← cands.mapM fun a => lastOf (h.lcb a)
  return ExpData.filterMask (lcbs.map (·.lt lowestUcb)) cands                           -- 530-534

/-- bandits.py 487-538: one pass of the loop of `SuccessiveEliminationAlgorithm.run`; the second component are
the candidate arms. -/
def seRound (env : BanditEnv W β) (ops : ArmOps S W β α) (cfg : BanditCfg I α) (all : Option (ExpData β))
    (st : Hist I α × List I) : Py ((I → S) × W) ((Hist I α × List I) ⊕ BanditData I α) :=
  if st.2.length ≤ 1 then return .inr (Hist.done st.1 st.2)                             -- 487
  else do
    let over ← Py.lift (overLimit cfg st.1.total)                                       -- 489
    if over then
      let (heap, _) ← Py.get
      let best ← Py.lift (lowestVarArms ops cfg heap)                                   -- 490-494
      return .inr (Hist.done st.1 best)
    else
      Py.forEach (pull env ops cfg all) st.2 ()                                         -- 496-502
      let h := addSamples (st.2.length * cfg.unitsPerRound) st.1                        -- 504, 507
      let h ← Py.forEach (record ops fun _ => 0) cfg.arms h                             -- 508-512
      let h := st.2.foldl (fun h a => setLastSample cfg.unitsPerRound a h) h            -- 514-515
      let cands ← Py.lift (eliminate h st.2)                                            -- 520-534
      if cands.length = 1 then return .inr (Hist.done h cands)                          -- 537-538
      else return .inl (h, cands)

/-- bandits.py 441-541 `SuccessiveEliminationAlgorithm.run`. -/
def seRun (env : BanditEnv W β) (ops : ArmOps S W β α) (cfg : BanditCfg I α) (all : Option (ExpData β))
    (fuel : Nat) : Py ((I → S) × W) (Option (BanditData I α)) :=
  Py.loop (seRound env ops cfg all) fuel (Hist.empty, cfg.arms)                         -- 485

end Bandit
end Verif
