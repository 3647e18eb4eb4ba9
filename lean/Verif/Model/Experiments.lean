import Verif.Model.PaperBandits
import Verif.Model.Plotting
import Verif.Model.RealLib

/-!
# Model of the experiments in `notebooks/paper_experiments.ipynb` (cells 17, 20 and 23)

`np.random.seed(m)` puts the global generator into the state `seed m`, and `get_section_5_?_example(seed = i)` works with a generator of
its own in the state `newRng i`.  The arm objects live in a heap; the three bandits of an example share them.  Not modelled: printing and
the plots.
-/

namespace Verif
namespace PaperBandits
open Section5 Bandit Plotting

variable {R K F W M P : Type}

/-- The numbers of samples that one repetition appends to `LUCB_samples`, `SE_samples` and `uniform_bandit_samples`. -/
structure Counts where
  lucb : Nat
  se : Nat
  uniform : Nat
  deriving DecidableEq

/-- cells 17 and 20, the body of `for m in range(n_repetitions)` after `all_data` is drawn, and the same part of cell 23: reset, seed and
run LUCB; reset, seed and run successive elimination; derive the count of the uniform algorithm.  `none`: a run is not over after `fuel` rounds. -/
noncomputable def repetition (ops : ArmOps (Obj M P) W (Cell ℝ) ℝ) (env : BanditEnv W (Cell ℝ)) (seed : Nat → W) (ex : Example W M P)
    (fuel : Nat) (all : ExpData (Cell ℝ)) (m : Nat) : Py ((Nat → Obj M P) × W) (Option Counts) := fun s =>
  match lucbRun env ops ex.lucb (some all) fuel (reset ops ex.lucb s.1, seed m) with
  | (.error e, s) => (.error e, s)
  | (.ok none, s) => (.ok none, s)
  | (.ok (some lucb), s) =>
    match reportedSamples lucb with
    | .error e => (.error e, s)
    | .ok a =>
      match seRun env ops ex.se (some all) fuel (reset ops ex.se s.1, seed m) with
      | (.error e, s) => (.error e, s)
      | (.ok none, s) => (.ok none, s)
      | (.ok (some se), s) =>
        match reportedSamples se with
        | .error e => (.error e, s)
        | .ok b =>
          match reportedUniform (List.range ex.arms.length) se with
          | .error e => (.error e, s)
          | .ok c => (.ok (some ⟨a, b, c⟩), s)

/-- cell 23, one pass of the loop: `num_back_door = k`, but the example is made with `num_back_door_paths = paths` (the cell has
`paths = 3` for every `k`).  `o` stands for heap entries that are not arms. -/
noncomputable def scalingStep (r : Noise W ℝ) (lib : Nonlinear.GPLib K F ℝ) (kernel : K) (g : Gens R W) (sk : Sklearn M P) (rng : Rng W ℝ)
    (choice : (n : Nat) → 0 < n → W → Fin n × W) (choice2 : (n : Nat) → 2 ≤ n → W → { p : Fin n × Fin n // p.1 ≠ p.2 } × W)
    (seed : Nat → W) (newRng : Nat → R) (o : Obj M P) (fuel paths i k limit units : Nat) (w : W) : Option (Except PyErr (Option Counts) × W) :=
  match example52 r lib kernel g sk (2 :: List.replicate k 3) (0 :: List.replicate k 2) 2 1 5 paths (.fin limit) units false fuel (newRng i, w) with
  | none => none
  | some (.error e, w) => some (.error e, w)
  | some (.ok ex, _) =>
    match generate ex.scm (limit + units * ex.arms.length) (seed i) with
    | (.error e, w) => some (.error e, w)
    | (.ok all, w) =>
      match repetition (objOps (etaOps sk) realLib rng) (envOf ex.scm choice choice2) seed ex fuel all i (heapOf o ex.arms, w) with
      | (x, s) => some (x, s.2)

/-- cell 23, the loop over the pairs of `back_door_size_list` and `sample_limit_list`; returns `(num_back_door, counts)` for every pass. -/
noncomputable def scaling (step : Nat → Nat → Nat → W → Option (Except PyErr (Option Counts) × W)) :
    Nat → List (Nat × Nat) → W → Option (Except PyErr (List (Nat × Counts)) × W)
  | _, [], w => some (.ok [], w)
  | i, (k, limit) :: l, w =>
    match step i k limit w with
    | none => none
    | some (.error e, w) => some (.error e, w)
    | some (.ok none, _) => none
    | some (.ok (some c), w) =>
      match scaling step (i + 1) l w with
      | some (.ok cs, w) => some (.ok ((k, c) :: cs), w)
      | x => x

/-- cell 23: the pairs. -/
def scalingList : List (Nat × Nat) :=
  (List.replicate 10 3 ++ List.replicate 10 4 ++ List.replicate 5 5 ++ List.replicate 5 6).zip (List.replicate 20 100000 ++ List.replicate 10 600000)

/-- cells 17 and 20, `for arm in arm_list`: split the arm's view of `temp_data`, fit its parameter on the first half, and take the variance
of the scores of the second, times the cost. -/
noncomputable def gapValue (ops : EtaOps (Eta M P) (Cell ℝ) ℝ) (rng : Rng W ℝ) (temp : ExpData (Cell ℝ)) (o : Obj M P) :
    Py (ArmState (Eta M P) (Cell ℝ) ℝ × W) (Fl ℝ) := do
  let folds ← Arm.transformAndFold o.cfg.transform rng temp
  let f0 ← Py.lift (match folds[0]? with | none => .error .indexError | some f => .ok f)
  Arm.etaFit ops f0
  let f1 ← Py.lift (match folds[1]? with | none => .error .indexError | some f => .ok f)
  let scores ← Arm.etaScore ops f1
  return o.cost.mul (Fl.var scores)

/-- the same for the arm `a` of the heap, which is reset before. -/
noncomputable def armGap (ops : EtaOps (Eta M P) (Cell ℝ) ℝ) (rng : Rng W ℝ) (temp : ExpData (Cell ℝ)) (a : Nat) : Py ((Nat → Obj M P) × W) (Fl ℝ) := fun s =>
  let x := gapValue ops rng temp (s.1 a) (Arm.reset ops (s.1 a).st, s.2)
  (x.1, (Function.update s.1 a { s.1 a with st := x.2.1 }, x.2.2))

/-- `var_hat_tau`. -/
noncomputable def gapLoop (ops : EtaOps (Eta M P) (Cell ℝ) ℝ) (rng : Rng W ℝ) (temp : ExpData (Cell ℝ)) : List Nat → Py ((Nat → Obj M P) × W) (List (Fl ℝ))
  | [] => pure []
  | a :: as => do
    let v ← armGap ops rng temp a
    let vs ← gapLoop ops rng temp as
    return v :: vs

/-- `min_gap > 5`. -/
noncomputable def clearGap (vs : List (Fl ℝ)) : Except PyErr Bool :=
  match sorted vs with
  | a :: b :: _ => .ok ((Fl.fin 5).lt (b.sub a))
  | _ => .error .indexError

/-- cells 17 and 20, `for m in range(n_repetitions)`: `m` passes are done, `n` are left; appends to the lists. -/
noncomputable def repeats (ops : ArmOps (Obj M P) W (Cell ℝ) ℝ) (env : BanditEnv W (Cell ℝ)) (seed : Nat → W) (ex : Example W M P)
    (fuel limit units : Nat) : Nat → Nat → Py ((Nat → Obj M P) × W) (Option (List Counts))
  | _, 0 => pure (some [])
  | m, n + 1 => fun s =>
    match generate ex.scm (limit + units * ex.arms.length) s.2 with
    | (.error e, w) => (.error e, (s.1, w))
    | (.ok all, w) =>
      match repetition ops env seed ex fuel all m (s.1, w) with
      | (.error e, s) => (.error e, s)
      | (.ok none, s) => (.ok none, s)
      | (.ok (some c), s) =>
        match repeats ops env seed ex fuel limit units (m + 1) n s with
        | (.ok (some cs), s) => (.ok (some (c :: cs)), s)
        | x => x

/-- cells 17 and 20, one pass of the `while` loop with the example `ex`; the empty list if the instance is rejected. -/
noncomputable def instancePass (sk : Sklearn M P) (rng : Rng W ℝ)
    (choice : (n : Nat) → 0 < n → W → Fin n × W) (choice2 : (n : Nat) → 2 ≤ n → W → { p : Fin n × Fin n // p.1 ≠ p.2 } × W)
    (seed : Nat → W) (o : Obj M P) (fuel limit units reps : Nat) (ex : Example W M P) (w : W) : Except PyErr (Option (List Counts)) × W :=
  match generate ex.scm 10000 w with
  | (.error e, w) => (.error e, w)
  | (.ok temp, w) =>
    match gapLoop (etaOps sk) rng temp (List.range ex.arms.length) (heapOf o ex.arms, w) with
    | (.error e, s) => (.error e, s.2)
    | (.ok vs, s) =>
      match clearGap vs with
      | .error e => (.error e, s.2)
      | .ok false => (.ok (some []), s.2)
      | .ok true =>
        match repeats (objOps (etaOps sk) realLib rng) (envOf ex.scm choice choice2) seed ex fuel limit units 0 reps s with
        | (x, s) => (x, s.2)

/-- cells 17 and 20: the `while` loop, at `instance = i`, with `got` repetitions recorded, for `tries` more instances; `make i` is the
call of `get_section_5_?_example` with `seed = i`.  Returns the entries of `instance_history` with the counts. -/
noncomputable def comparison (make : Nat → W → Option (Except PyErr (Example W M P) × W))
    (pass : Example W M P → W → Except PyErr (Option (List Counts)) × W) (target : Nat) :
    Nat → Nat → Nat → W → Option (Except PyErr (List (Nat × Counts)) × W)
  | tries, i, got, w =>
    if target ≤ got then some (.ok [], w)
    else match tries with
    | 0 => none
    | tries + 1 =>
      match make i w with
      | none => none
      | some (.error e, w) => some (.error e, w)
      | some (.ok ex, w) =>
        match pass ex w with
        | (.error e, w) => some (.error e, w)
        | (.ok none, _) => none
        | (.ok (some cs), w) =>
          match comparison make pass target tries (i + 1) (got + cs.length) w with
          | some (.ok rest, w) => some (.ok (cs.map (fun c => (i, c)) ++ rest), w)
          | x => x

end PaperBandits
end Verif
