import Verif.Lemmas.SCM

/-!
# C15 – C18: structural causal models
-/

set_option linter.unusedSectionVars false

namespace Verif
namespace SCM
variable {V β W : Type} [DecidableEq V]

/-- Example: a two-variable model `X → Y`; the world is a counter that every draw increments. -/
def demoScm : SCM Nat Int Nat where
  varNames := [0, 1]
  parents := [(0, []), (1, [0])]
  cpds := [(0, fun n _ w => (.ok (.d1 (List.replicate n (w : Int))), w + 1)),
           (1, fun n pa w => (.ok (.d1 ((pa.map asRows).flatten.flatten.take n |>.map (· + 10) |> fun l => l ++ List.replicate (n - l.length) 0)), w + 1))]
  covVariables := [1, 0]
  treatment := 0
  response := 1

/-! ## C15 -/

/-- **C15** whenever `generate` succeeds, there is an assignment `s` of samples to variables, drawn in
`var_names` order one after the other, each CPD receiving exactly the samples of its declared parents
(all drawn earlier); exposure and response are the designated variables' samples, and row `i` of the
covariates is the concatenation of the rows `i` of the covariate variables in order. -/
theorem C15_generate_run (scm : SCM V β W) (hnd : scm.varNames.Nodup)
    (hcov : ∀ v ∈ scm.covVariables, v ∈ scm.varNames) (ht : scm.treatment ∈ scm.varNames)
    (hy : scm.response ∈ scm.varNames) (n : Nat) (w w' : W) (smp : Sample β)
    (h : scm.generate n w = (.ok smp, w')) :
    ∃ (s : V → Arr β) (ws : List W), IsRun scm n s ws ∧ ws.head? = some w ∧ ws.getLast? = some w' ∧
      smp.exp = s scm.treatment ∧ smp.rsp = s scm.response ∧
      smp.cov.nFeatures = (scm.covVariables.map fun v => (s v).nFeatures).sum ∧
      (∀ v ∈ scm.covVariables, (s v).len = smp.cov.len) ∧
      ∀ i, i < smp.cov.len →
        smp.cov.row? i = some ((scm.covVariables.map fun v => ((s v).row? i).getD []).flatten) := by
  unfold generate at h
  rcases hl : scm.sampleLoop n scm.varNames [] w with ⟨r, w1⟩
  rw [hl] at h
  cases r with
  | error e => simp at h
  | ok S =>
    simp only [Prod.mk.injEq] at h
    obtain ⟨h, rfl⟩ := h
    obtain ⟨-, hall, ws, l1, l2, l3, l4⟩ := sampleLoop_run scm n scm.varNames [] S w w1 hnd (by simp [Dict.get?]) hl
    let s : V → Arr β := fun v => (S.get? v).getD (.d1 [])
    have hs : ∀ v ∈ scm.varNames, S.get? v = some (s v) := by
      intro v hv
      obtain ⟨a, ha⟩ := Option.ne_none_iff_exists'.mp (hall v hv)
      simp [s, ha]
    rw [lookupAll_ok S scm.covVariables s (fun v hv => hs v (hcov v hv)),
      lookupAll_ok S [scm.treatment] s (by simpa using hs _ ht),
      lookupAll_ok S [scm.response] s (by simpa using hs _ hy)] at h
    simp only [bind, Except.bind, List.map_cons, List.map_nil] at h
    rcases hc : columnStack (scm.covVariables.map s) with e | c
    · rw [hc] at h; simp at h
    · rw [hc] at h
      simp only [pure, Except.pure, Except.ok.injEq] at h
      subst h
      obtain ⟨m, hne, hm⟩ := columnStack_inv _ _ hc
      obtain ⟨c', hc', c1, c2, c3, c4⟩ := columnStack_ok (scm.covVariables.map s) m hne hm
      rw [hc] at hc'
      obtain rfl := Except.ok.inj hc'
      refine ⟨s, ws, ⟨l1, ?_⟩, ?_, ?_, rfl, rfl, ?_, ?_, ?_⟩
      · intro j v hj
        obtain ⟨ps, cpd, wj, wj', a, k1, k2, k3, k4, k5, k6, pa, rfl, k7⟩ := l4 j v hj
        refine ⟨ps, cpd, wj, wj', k1, k2, k3, k4, ?_, ?_⟩
        · intro p hp
          rcases k5 p hp with h | h
          · simp [Dict.get?] at h
          · exact h
        · rw [k7]; simp [s, k6]
      · rw [List.head?_eq_getElem?]; exact l2
      · rw [List.getLast?_eq_getElem?, l1]; exact l3
      · rw [c1, List.map_map]; rfl
      · intro v hv
        show (s v).len = c.len
        rw [c3]; exact hm _ (List.mem_map.mpr ⟨v, hv, rfl⟩)
      · intro i hi
        have : i < m := by rw [← c3]; exact hi
        rw [c4 i this, List.map_map]; rfl

/-- **C15** with CPDs that do not raise and return one row per unit, `generate` succeeds exactly when
every variable is listed after its parents, and otherwise raises `ValueError`. -/
theorem C15_generate_ordering (scm : SCM V β W) (n : Nat) (htot : scm.TotalCpds n)
    (hv : Valid scm.varNames scm.parents scm.cpds scm.covVariables scm.treatment scm.response)
    (hcov : scm.covVariables ≠ []) (hnd : scm.varNames.Nodup) (w : W) :
    (scm.Ordered → ∃ smp w', scm.generate n w = (.ok smp, w')) ∧
    (¬ scm.Ordered → (scm.generate n w).1 = .error .valueError) := by
  constructor
  · intro hord
    obtain ⟨S, w1, h1, h2⟩ := sampleLoop_success scm n htot scm.varNames [] w hv.parents hv.cpds (by simp [Dict.get?])
      (fun j v ps hj hps p hp => Or.inr (hord j v ps hj hps p hp))
    obtain ⟨-, hall, -⟩ := sampleLoop_run scm n scm.varNames [] S w w1 hnd (by simp [Dict.get?]) h1
    let s : V → Arr β := fun v => (S.get? v).getD (.d1 [])
    have hs : ∀ v ∈ scm.varNames, S.get? v = some (s v) := by
      intro v hv
      obtain ⟨a, ha⟩ := Option.ne_none_iff_exists'.mp (hall v hv)
      simp [s, ha]
    obtain ⟨c, hc, -⟩ := columnStack_ok (scm.covVariables.map s) n (by simpa using hcov) (by
      intro a ha
      obtain ⟨v, hv', rfl⟩ := List.mem_map.mp ha
      exact (h2 v _ (hs v (hv.cov v hv'))).1)
    refine ⟨{ cov := c, exp := s scm.treatment, rsp := s scm.response }, w1, ?_⟩
    unfold generate
    rw [h1]
    simp only
    rw [lookupAll_ok S scm.covVariables s (fun v hv' => hs v (hv.cov v hv')),
      lookupAll_ok S [scm.treatment] s (by simpa using hs _ hv.treatment),
      lookupAll_ok S [scm.response] s (by simpa using hs _ hv.response)]
    simp only [bind, Except.bind, hc, List.map_cons, List.map_nil, pure, Except.pure]
  · intro hord
    have := sampleLoop_unordered scm n htot scm.varNames [] w hv.parents hv.cpds (by
      unfold Ordered at hord
      push Not at hord
      obtain ⟨j, v, ps, h1, h2, p, h3, h4⟩ := hord
      exact ⟨j, v, ps, p, h1, h2, h3, rfl, h4⟩)
    unfold generate
    rcases hl : scm.sampleLoop n scm.varNames [] w with ⟨r, w1⟩
    rw [hl] at this
    simp only at this
    subst this
    rfl

/-- **C15** an unordered model never yields data, even with CPDs that raise or misbehave. -/
theorem C15_unordered_never_generates (scm : SCM V β W) (n : Nat) (hnd : scm.varNames.Nodup) (w w' : W)
    (smp : Sample β) (h : scm.generate n w = (.ok smp, w')) : scm.Ordered := by
  unfold generate at h
  rcases hl : scm.sampleLoop n scm.varNames [] w with ⟨r, w1⟩
  rw [hl] at h
  cases r with
  | error e => simp at h
  | ok S =>
    obtain ⟨-, -, ws, l1, l2, l3, l4⟩ := sampleLoop_run scm n scm.varNames [] S w w1 hnd (by simp [Dict.get?]) hl
    intro j v ps hj hps p hp
    obtain ⟨ps', cpd, wj, wj', a, k1, k2, k3, k4, k5, -⟩ := l4 j v hj
    rw [hps] at k1
    obtain rfl := Option.some.inj k1
    rcases k5 p hp with h | h
    · simp [Dict.get?] at h
    · exact h

example : Valid demoScm.varNames demoScm.parents demoScm.cpds demoScm.covVariables demoScm.treatment demoScm.response :=
  ⟨by decide +kernel, by intro v hv; simp [demoScm] at hv; rcases hv with rfl | rfl <;> simp [demoScm, Dict.get?],
    by decide +kernel, by decide +kernel, by decide +kernel⟩

example : demoScm.Ordered ∧ demoScm.TotalCpds 2 ∧ demoScm.varNames.Nodup := by
  refine ⟨?_, ?_, by decide⟩
  · intro j v ps hj hps p hp
    rcases j with _ | _ | j
    · simp [demoScm] at hj; subst hj; simp [demoScm, Dict.get?] at hps; simp [hps] at hp
    · simp [demoScm] at hj; subst hj; simp [demoScm, Dict.get?] at hps; subst hps
      simp at hp; subst hp; simp [demoScm]
    · simp [demoScm] at hj
  · intro v cpd hc pa w
    simp only [demoScm, Dict.get?] at hc
    split at hc
    · obtain rfl := Option.some.inj hc
      exact ⟨_, _, rfl, by simp [Arr.len], trivial⟩
    · split at hc
      · obtain rfl := Option.some.inj hc
        refine ⟨_, _, rfl, ?_, trivial⟩
        simp only [Arr.len, List.length_append, List.length_map, List.length_take, List.length_replicate]
        omega
      · simp at hc

example : ∃ smp, demoScm.generate 2 5 = (.ok smp, 7) ∧ smp.cov = .d2 2 [[15, 5], [15, 5]] ∧ smp.exp = .d1 [5, 5] :=
  ⟨{ cov := .d2 2 [[15, 5], [15, 5]], exp := .d1 [5, 5], rsp := .d1 [15, 15] }, rfl, rfl, rfl⟩

/-! ## C16 -/

/-- **C16** the constructor raises `ValueError` exactly on invalid arguments and otherwise stores them. -/
theorem C16_constructor (varNames : List V) (parents : Dict V (List V)) (cpds : Dict V (CPD β W)) (cov : List V)
    (treatment response : V) :
    (Valid varNames parents cpds cov treatment response ∧
      new varNames parents cpds cov treatment response =
        .ok { varNames, parents, cpds, covVariables := cov, treatment, response }) ∨
    (¬ Valid varNames parents cpds cov treatment response ∧
      new varNames parents cpds cov treatment response = .error .valueError) := by
  by_cases h : Valid varNames parents cpds cov treatment response
  · left
    refine ⟨h, ?_⟩
    have h1 : (varNames.any fun v => (parents.get? v).isNone) = false := by
      rw [List.any_eq_false]; intro v hv; simp [h.parents v hv]
    have h2 : (varNames.any fun v => (cpds.get? v).isNone) = false := by
      rw [List.any_eq_false]; intro v hv; simp [h.cpds v hv]
    have h3 : (cov.any fun v => decide (v ∉ varNames)) = false := by
      rw [List.any_eq_false]; intro v hv; simp [h.cov v hv]
    unfold new
    simp only [h1, h2, h3, h.treatment, h.response, not_true, if_false, Bool.false_eq_true]
  · right
    refine ⟨h, ?_⟩
    unfold new
    split
    · rfl
    · rename_i h1
      split
      · rfl
      · rename_i h2
        split
        · rfl
        · rename_i h3
          split
          · rfl
          · rename_i h4
            split
            · rfl
            · rename_i h5
              exfalso
              apply h
              refine ⟨?_, ?_, by simpa using h3, by simpa using h4, ?_⟩
              · intro v hv hc
                exact h1 (List.any_eq_true.mpr ⟨v, hv, by simp [hc]⟩)
              · intro v hv hc
                exact h2 (List.any_eq_true.mpr ⟨v, hv, by simp [hc]⟩)
              · intro v hv
                by_contra hc
                exact h5 (List.any_eq_true.mpr ⟨v, hv, by simpa using hc⟩)

example : (new [0, 1] [(0, []), (1, [0])] ([] : Dict Nat (CPD Int Nat)) [0] 0 1) = .error .valueError := rfl

/-! ## C17 -/

/-- **C17 is violated**: on *every* valid, ordered model whose CPDs do not raise,
`compute_treatment_effect` raises `AttributeError` (it calls `self.deterministic_cpd`, which does not
exist), and afterwards the treatment CPD has been replaced for good: `generate` of the same object raises
as well. -/
theorem C17_treatment_effect_violated {R : Type} (mean : Arr β → R) (sub : R → R → R) (scm : SCM V β W) (n : Nat)
    (htot : scm.TotalCpds n) (hord : scm.Ordered)
    (hv : Valid scm.varNames scm.parents scm.cpds scm.covVariables scm.treatment scm.response) (w : W) :
    (scm.computeTreatmentEffect mean sub n w).1 = .error .attributeError ∧
    ∀ w', ((scm.computeTreatmentEffect mean sub n w).2.1.generate n w').1 = .error .attributeError := by
  let scm1 : SCM V β W := { scm with cpds := scm.cpds.set scm.treatment selfDeterministicCpd }
  -- the sampling loop of the modified model always ends in AttributeError
  have key : ∀ (vs : List V) (samples : Dict V (Arr β)) (w : W), scm.treatment ∈ vs →
      (∀ v ∈ vs, v ∈ scm.varNames) →
      (∀ (j : Nat) v ps, vs[j]? = some v → scm.parents.get? v = some ps →
        ∀ p ∈ ps, samples.get? p ≠ none ∨ p ∈ vs.take j) →
      (scm1.sampleLoop n vs samples w).1 = .error .attributeError := by
    intro vs
    induction vs with
    | nil => intro _ _ h; simp at h
    | cons v vs ih =>
      intro samples w ht hsub ho
      obtain ⟨ps, hp⟩ := Option.ne_none_iff_exists'.mp (hv.parents v (hsub v (by simp)))
      obtain ⟨cpd, hc⟩ := Option.ne_none_iff_exists'.mp (hv.cpds v (hsub v (by simp)))
      have hall : ∀ p ∈ ps, samples.get? p ≠ none := by
        intro p hpp
        rcases ho 0 v ps (by simp) hp p hpp with h | h
        · exact h
        · simp at h
      have hany : (ps.any fun p => (samples.get? p).isNone) = false := by
        rw [List.any_eq_false]
        intro p hpp
        simp [hall p hpp]
      have hl := lookupAll_ok samples ps (fun p => (samples.get? p).getD (.d1 [])) (by
        intro p hpp; obtain ⟨a, ha⟩ := Option.ne_none_iff_exists'.mp (hall p hpp); simp [ha])
      have hp1 : scm1.parents.get? v = some ps := hp
      by_cases htv : scm.treatment = v
      · have hc1 : scm1.cpds.get? v = some selfDeterministicCpd := by
          show (scm.cpds.set _ _).get? v = _
          rw [Dict.get?_set, if_pos htv]
        rw [sampleLoop, hp1]
        simp only [hany, hl, hc1, selfDeterministicCpd]
        simp
      · have hc1 : scm1.cpds.get? v = some cpd := by
          show (scm.cpds.set _ _).get? v = _
          rw [Dict.get?_set, if_neg htv, hc]
        obtain ⟨a, w1, ha, han, haw⟩ := htot v cpd hc (ps.map fun p => (samples.get? p).getD (.d1 [])) w
        have := ih (samples.set v a) w1 (by simpa [htv] using ht) (fun u hu => hsub u (by simp [hu])) (by
          intro j u ps' hj hps' p hpp
          rcases ho (j + 1) u ps' (by simpa using hj) hps' p hpp with h | h
          · left
            rw [Dict.get?_set]
            split <;> simp_all
          · simp only [List.take_succ_cons, List.mem_cons] at h
            rcases h with h | h
            · left; subst h; rw [Dict.get?_set, if_pos rfl]; simp
            · right; exact h)
        rw [sampleLoop, hp1]
        simp only [hany, hl, hc1, ha]
        simpa using this
  have hgen : ∀ w', ∃ w'', scm1.generate n w' = (.error .attributeError, w'') := by
    intro w'
    have := key scm.varNames [] w' hv.treatment (fun _ h => h)
      (fun j v ps hj hps p hp => Or.inr (hord j v ps hj hps p hp))
    unfold generate
    rcases hl : scm1.sampleLoop n scm1.varNames [] w' with ⟨r, w1⟩
    have hl' : scm1.sampleLoop n scm.varNames [] w' = (r, w1) := hl
    rw [hl'] at this
    simp only at this
    subst this
    exact ⟨w1, rfl⟩
  obtain ⟨w1, h1⟩ := hgen w
  have hcte : scm.computeTreatmentEffect mean sub n w = (.error .attributeError, scm1, w1) := by
    unfold computeTreatmentEffect
    simp only
    rw [show ({ scm with cpds := scm.cpds.set scm.treatment selfDeterministicCpd } : SCM V β W) = scm1 from rfl, h1]
  rw [hcte]
  refine ⟨rfl, fun w' => ?_⟩
  obtain ⟨w2, h2⟩ := hgen w'
  show (scm1.generate n w').1 = _
  rw [h2]

/-- **C17 (partial)**: whatever happens, `compute_treatment_effect` changes nothing except the CPD of the
treatment variable; and if it returned a value, the old CPD would be restored.  Missing: it never returns
a value on a working model and the treatment CPD is lost (`C17_treatment_effect_violated`). -/
theorem C17_only_treatment_cpd_changes_partial {R : Type} (mean : Arr β → R) (sub : R → R → R) (scm : SCM V β W)
    (n : Nat) (w : W) :
    let scm' := (scm.computeTreatmentEffect mean sub n w).2.1
    scm'.varNames = scm.varNames ∧ scm'.parents = scm.parents ∧ scm'.covVariables = scm.covVariables ∧
    scm'.treatment = scm.treatment ∧ scm'.response = scm.response ∧
    (∀ v, v ≠ scm.treatment → scm'.cpds.get? v = scm.cpds.get? v) ∧
    ∀ r, (scm.computeTreatmentEffect mean sub n w).1 = .ok r → scm.cpds.get? scm.treatment ≠ none →
      scm'.cpds.get? scm.treatment = scm.cpds.get? scm.treatment := by
  intro scm'
  have hset : ∀ (d : Dict V (CPD β W)) c v, v ≠ scm.treatment → (d.set scm.treatment c).get? v = d.get? v := by
    intro d c v hv
    rw [Dict.get?_set, if_neg (fun e => hv e.symm)]
  simp only [scm', computeTreatmentEffect]
  split
  · refine ⟨rfl, rfl, rfl, rfl, rfl, fun v hv => hset _ _ v hv, ?_⟩
    intro r hr; simp at hr
  · split
    · refine ⟨rfl, rfl, rfl, rfl, rfl, fun v hv => ?_, ?_⟩
      · rw [hset _ _ v hv, hset _ _ v hv]
      · intro r hr; simp at hr
    · cases hc : scm.cpds.get? scm.treatment with
      | none =>
        refine ⟨rfl, rfl, rfl, rfl, rfl, fun v hv => ?_, ?_⟩
        · simp only; rw [hset _ _ v hv, hset _ _ v hv]
        · intro r _ h; exact absurd rfl h
      | some c =>
        refine ⟨rfl, rfl, rfl, rfl, rfl, fun v hv => ?_, ?_⟩
        · simp only; rw [hset _ _ v hv, hset _ _ v hv, hset _ _ v hv]
        · intro r _ _; simp only; rw [Dict.get?_set, if_pos rfl]

example : (demoScm.computeTreatmentEffect (fun _ => (0 : Int)) (· - ·) 2 0).1 = .error .attributeError ∧
    ((demoScm.computeTreatmentEffect (fun _ => (0 : Int)) (· - ·) 2 0).2.1.generate 2 0).1 = .error .attributeError :=
  ⟨rfl, rfl⟩

end SCM

/-! ## C18 -/

section C18
variable {β W : Type}

theorem mapM_entry (rest : List (List β)) (i : Nat) (h : ∀ p ∈ rest, i < p.length) :
    ∃ es, rest.mapM (unitEntry i) = .ok es ∧
      es.map some = rest.map (·[i]?) := by
  induction rest with
  | nil => exact ⟨[], rfl, rfl⟩
  | cons p rest ih =>
    obtain ⟨es, h1, h2⟩ := ih (fun q hq => h q (by simp [hq]))
    have hp : p[i]? = some (p[i]'(h p (by simp))) := List.getElem?_eq_getElem _
    refine ⟨p[i]'(h p (by simp)) :: es, ?_, ?_⟩
    · rw [List.mapM_cons, h1]
      simp only [unitEntry, hp]
      rfl
    · simp [h2, hp]

theorem catLoop_spec (toInt : β → Int) (dists : List (List β → W → Except PyErr β × W)) (rest : List (List β))
    (cond : List β) (i : Nat) (w : W) (hlen : ∀ p ∈ rest, i + cond.length ≤ p.length) (out : List β) (w' : W)
    (h : catLoop toInt dists rest i cond w = (.ok out, w')) :
    out.length = cond.length ∧ ∀ (j : Nat) c o, cond[j]? = some c → out[j]? = some o →
      ∃ k dist es wj wj', ExpData.column dists.length (toInt c) = some k ∧ dists[k]? = some dist ∧
        es.map some = rest.map (·[i + j]?) ∧ dist es wj = (.ok o, wj') := by
  induction cond generalizing i w out with
  | nil =>
    simp only [catLoop, Prod.mk.injEq, Except.ok.injEq] at h
    obtain ⟨rfl, rfl⟩ := h
    exact ⟨rfl, by simp⟩
  | cons c cond ih =>
    obtain ⟨es, he1, he2⟩ := mapM_entry rest i (fun p hp => by have := hlen p hp; simp at this; omega)
    rw [catLoop, he1] at h
    simp only [ExpData.pyIndex_eq_column] at h
    cases hk : ExpData.column dists.length (toInt c) with
    | none => rw [hk] at h; simp at h
    | some k =>
      rw [hk] at h
      simp only at h
      cases hd : dists[k]? with
      | none => rw [hd] at h; simp at h
      | some dist =>
        rw [hd] at h
        simp only at h
        rcases hr : dist es w with ⟨r, w1⟩
        rw [hr] at h
        cases r with
        | error e => simp at h
        | ok s =>
          simp only at h
          rcases hc : catLoop toInt dists rest (i + 1) cond w1 with ⟨r2, w2⟩
          rw [hc] at h
          cases r2 with
          | error e => simp at h
          | ok ss =>
            simp only [Prod.mk.injEq, Except.ok.injEq] at h
            obtain ⟨rfl, rfl⟩ := h
            obtain ⟨g1, g2⟩ := ih (i + 1) w1 (fun p hp => by have := hlen p hp; simp at this; omega) ss hc
            refine ⟨by simp [g1], ?_⟩
            intro j c' o hj ho
            cases j with
            | zero =>
              simp only [List.getElem?_cons_zero, Option.some.injEq] at hj ho
              subst hj; subst ho
              exact ⟨k, dist, es, w, w1, hk, hd, by simpa using he2, hr⟩
            | succ j =>
              simp only [List.getElem?_cons_succ] at hj ho
              obtain ⟨k', dist', es', wj, wj', q1, q2, q3, q4⟩ := g2 j c' o hj ho
              exact ⟨k', dist', es', wj, wj', q1, q2, by rw [q3]; simp [Nat.add_comm, Nat.add_left_comm], q4⟩

/-- **C18 (partial)** for a non-negative conditioning index within range and parents of equal length, a
successful call returns one value per unit; the `j`-th is drawn from the distribution selected by the
`j`-th value of the conditioning parent, evaluated on the `j`-th entries of the other parents in order.
Missing: the validation part is only half true, see `C18_negative_index_violated`. -/
theorem C18_conditioning_partial (toInt : β → Int) (parents : List (List β)) (idx : Nat) (n : Nat)
    (dists : List (List β → W → Except PyErr β × W)) (w w' : W) (hlen : ∀ p ∈ parents, p.length = n)
    (cond : List β) (hcond : parents[idx]? = some cond) (out : List β) (rest : List (List β))
    (h : categoricalConditioning toInt parents idx dists w = (.ok out, rest, w')) :
    out.length = n ∧ rest = parents.eraseIdx idx ∧
    ∀ (j : Nat) c o, cond[j]? = some c → out[j]? = some o →
      ∃ k dist es wj wj', ExpData.column dists.length (toInt c) = some k ∧ dists[k]? = some dist ∧
        es.map some = (parents.eraseIdx idx).map (·[j]?) ∧ dist es wj = (.ok o, wj') := by
  have hi : idx < parents.length := by
    by_contra hc; rw [List.getElem?_eq_none (not_lt.mp hc)] at hcond; simp at hcond
  unfold categoricalConditioning at h
  rw [if_neg (by omega)] at h
  have hpi : ExpData.pyIndex parents.length (idx : Int) = .ok idx := by
    rw [ExpData.pyIndex_eq_column]; simp [ExpData.column, hi]
  rw [hpi] at h
  simp only [hcond] at h
  rcases hl : catLoop toInt dists (parents.eraseIdx idx) 0 cond w with ⟨r, w1⟩
  rw [hl] at h
  simp only [Prod.mk.injEq] at h
  obtain ⟨rfl, rfl, rfl⟩ := h
  have hcl : cond.length = n := hlen _ (List.mem_of_getElem? hcond)
  obtain ⟨g1, g2⟩ := catLoop_spec toInt dists (parents.eraseIdx idx) cond 0 w (by
    intro p hp; rw [hlen p (List.mem_of_mem_eraseIdx hp), hcl]; omega) out w1 hl
  refine ⟨g1.trans hcl, rfl, ?_⟩
  intro j c o hj ho
  have := g2 j c o hj ho
  simpa using this

/-- **C18** an index at or beyond the number of parents is a `ValueError` and changes nothing. -/
theorem C18_index_too_large (toInt : β → Int) (parents : List (List β)) (idx : Int)
    (dists : List (List β → W → Except PyErr β × W)) (w : W) (h : (parents.length : Int) ≤ idx) :
    categoricalConditioning toInt parents idx dists w = (.error .valueError, parents, w) := by
  unfold categoricalConditioning; rw [if_pos h]

theorem catLoop_bad_category (toInt : β → Int) (dists : List (List β → W → Except PyErr β × W))
    (hd : ∀ dist ∈ dists, ∀ es w, ∃ o w', dist es w = (.ok o, w')) (rest : List (List β))
    (cond : List β) (i : Nat) (w : W) (hlen : ∀ p ∈ rest, i + cond.length ≤ p.length)
    (hbad : ∃ c ∈ cond, ExpData.column dists.length (toInt c) = none) :
    (catLoop toInt dists rest i cond w).1 = .error .indexError := by
  induction cond generalizing i w with
  | nil => simp at hbad
  | cons c cond ih =>
    obtain ⟨es, he1, he2⟩ := mapM_entry rest i (fun p hp => by have := hlen p hp; simp at this; omega)
    rw [catLoop, he1]
    simp only [ExpData.pyIndex_eq_column]
    cases hk : ExpData.column dists.length (toInt c) with
    | none => rfl
    | some k =>
      simp only
      have hkl := ExpData.column_lt hk
      rw [List.getElem?_eq_getElem hkl]
      simp only
      obtain ⟨o, w1, ho⟩ := hd dists[k] (List.getElem_mem hkl) es w
      rw [ho]
      simp only
      have := ih (i + 1) w1 (fun p hp => by have := hlen p hp; simp at this; omega) (by
        obtain ⟨c', hc', h'⟩ := hbad
        rcases List.mem_cons.mp hc' with rfl | hc'
        · rw [hk] at h'; simp at h'
        · exact ⟨c', hc', h'⟩)
      rcases hr : catLoop toInt dists rest (i + 1) cond w1 with ⟨r, w2⟩
      rw [hr] at this
      simp only at this
      subst this
      rfl

/-- **C18** a category without a distribution is an `IndexError` (for distributions that do not raise). -/
theorem C18_missing_category (toInt : β → Int) (parents : List (List β)) (idx : Nat) (n : Nat)
    (dists : List (List β → W → Except PyErr β × W))
    (hd : ∀ dist ∈ dists, ∀ es w, ∃ o w', dist es w = (.ok o, w')) (w : W) (hlen : ∀ p ∈ parents, p.length = n)
    (cond : List β) (hcond : parents[idx]? = some cond)
    (hbad : ∃ c ∈ cond, ExpData.column dists.length (toInt c) = none) :
    (categoricalConditioning toInt parents idx dists w).1 = .error .indexError := by
  have hi : idx < parents.length := by
    by_contra hc; rw [List.getElem?_eq_none (not_lt.mp hc)] at hcond; simp at hcond
  unfold categoricalConditioning
  rw [if_neg (by omega)]
  have hpi : ExpData.pyIndex parents.length (idx : Int) = .ok idx := by
    rw [ExpData.pyIndex_eq_column]; simp [ExpData.column, hi]
  rw [hpi]
  simp only [hcond]
  have hcl : cond.length = n := hlen _ (List.mem_of_getElem? hcond)
  have := catLoop_bad_category toInt dists hd (parents.eraseIdx idx) cond 0 w (by
    intro p hp; rw [hlen p (List.mem_of_mem_eraseIdx hp), hcl]; omega) hbad
  exact this

/-- **C18 is violated for negative indices and categories**: an index below `-len(parents)` raises
`IndexError` instead of `ValueError`; index `-1` is silently accepted and conditions on the last parent;
category `-1` silently selects the last distribution. -/
theorem C18_negative_index_violated :
    ∃ (dists : List (List Int → Nat → Except PyErr Int × Nat)),
      (categoricalConditioning id [[0, 1], [5, 6]] (-3) dists 0).1 = .error .indexError ∧
      (categoricalConditioning id [[5, 6], [0, 1]] (-1) dists 0).1 = .ok [5, 106] ∧
      (categoricalConditioning id [[-1, -1], [5, 6]] 0 dists 0).1 = .ok [105, 106] :=
  ⟨[fun es w => (.ok (es.headD 0), w), fun es w => (.ok (es.headD 0 + 100), w)], rfl, rfl, rfl⟩

example : ∃ (dists : List (List Int → Nat → Except PyErr Int × Nat)),
    categoricalConditioning id [[0, 1, 0], [5, 6, 7]] 0 dists 0 = (.ok [5, 106, 7], [[5, 6, 7]], 0) ∧
    (categoricalConditioning id [[0, 2, 0], [5, 6, 7]] 0 dists 0).1 = .error .indexError :=
  ⟨[fun es w => (.ok (es.headD 0), w), fun es w => (.ok (es.headD 0 + 100), w)], rfl, rfl⟩

end C18
end Verif
