import Verif.Lemmas.Arms2
import Verif.Lemmas.Fl
import Verif.Lemmas.RealLib

/-!
# Outcomes of the estimation phase
-/

set_option linter.unusedSectionVars false

namespace Verif
namespace Arm
open ExpData
variable {E β α W : Type} [Field α] [LinearOrder α]

/-- The interval computed from fold 1 once estimation succeeded (arms.py 239-279). -/
inductive IntervalOf (cfg : SSConfig β α) (ops : EtaOps E β α) (lib : Libm α) (delta : Fl α) (numPulled : Nat)
    (f1 : ExpData β) (e : E) (v ate : Fl α) : Fl α → Fl α → E → Prop
  | chi2 : cfg.alg = .chi2 →
      IntervalOf cfg ops lib delta numPulled f1 e v ate (chi2Ci lib v delta f1.nUnits).1 (chi2Ci lib v delta f1.nUnits).2 e
  | clt (sc e') : cfg.alg = .clt → ops.score e f1 = (.ok sc, e') →
      IntervalOf cfg ops lib delta numPulled f1 e v ate (cltCi lib v ate delta numPulled sc f1.nUnits).1
        (cltCi lib v ate delta numPulled sc f1.nUnits).2 e'
  | burnIn (ew) : cfg.alg = .finiteSample → cfg.tauBound.le (.fin 0) = false → cfg.burnIn.le (.fin 1) = false →
      cfg.subG.le (.fin 0) = false → ops.csWidth e (delta.div (.fin 2)) cfg.etaSubG cfg.rho = .ok ew →
      (Fl.fin (f1.nUnits : α)).lt cfg.burnIn = true →
      IntervalOf cfg ops lib delta numPulled f1 e v ate (.fin 0) .pinf e
  | finite (ew) : cfg.alg = .finiteSample → cfg.tauBound.le (.fin 0) = false → cfg.burnIn.le (.fin 1) = false →
      cfg.subG.le (.fin 0) = false → ops.csWidth e (delta.div (.fin 2)) cfg.etaSubG cfg.rho = .ok (some ew) →
      (Fl.fin (f1.nUnits : α)).lt cfg.burnIn = false →
      IntervalOf cfg ops lib delta numPulled f1 e v ate
        (Fl.maxStep (v.sub (fsWidth lib cfg.subG cfg.tauBound cfg.burnIn delta f1.nUnits ew)) (.fin 0))
        (v.add (fsWidth lib cfg.subG cfg.tauBound cfg.burnIn delta f1.nUnits ew)) e

/-- A successful estimation phase. -/
inductive Estimated (cfg : SSConfig β α) (ops : EtaOps E β α) (lib : Libm α) (delta : Fl α) (s : ArmState E β α) :
    Fl α → Fl α → ArmState E β α → Prop
  | few (l f0 e1) : s.split = some l → l[0]? = some f0 → ops.fit s.eta f0 = (.ok (), e1) → ops.hasEnough e1 = .ok false →
      Estimated cfg ops lib delta s (.fin 0) .pinf
        { s with eta := e1, ate := some .nan, varEst := some .pinf, ci := (some (.fin 0), some .pinf) }
  | enough (l f0 e1 f1 sc1 e2 sc2 e3 lo hi e4) : s.split = some l → l[0]? = some f0 → ops.fit s.eta f0 = (.ok (), e1) →
      ops.hasEnough e1 = .ok true → l[1]? = some f1 → ops.score e1 f1 = (.ok sc1, e2) → ops.score e2 f1 = (.ok sc2, e3) →
      (Fl.mean (sqDev sc2 (Fl.mean sc1))).isNan = false →
      IntervalOf cfg ops lib delta s.numPulled f1 e3 (Fl.mean (sqDev sc2 (Fl.mean sc1))) (Fl.mean sc1) lo hi e4 →
      Estimated cfg ops lib delta s lo hi
        { s with eta := e4, ate := some (Fl.mean sc1), varEst := some (Fl.mean (sqDev sc2 (Fl.mean sc1))),
                 ci := (some lo, some hi) }

theorem fold_ok {i : Nat} {s : ArmState E β α} {w : W} {l : List (ExpData β)} {d : ExpData β} (h1 : s.split = some l)
    (h2 : l[i]? = some d) : fold i (s, w) = (.ok d, s, w) := by
  simp only [fold, h1, h2]

theorem fold_inv {i : Nat} {s : ArmState E β α} {w : W} {d : ExpData β} {r} (h : fold i (s, w) = (.ok d, r)) :
    r = (s, w) ∧ ∃ l, s.split = some l ∧ l[i]? = some d := by
  unfold fold at h
  rcases hs : s.split with _ | l
  · simp [hs] at h
  · simp only [hs] at h
    rcases hd : l[i]? with _ | d'
    · simp [hd] at h
    · simp only [hd, Prod.mk.injEq, Except.ok.injEq] at h
      exact ⟨h.2.symm, l, rfl, by rw [hd, h.1]⟩

theorem bind_inv {σ A B : Type} {m : Py σ A} {f : A → Py σ B} {s s' : σ} {b : B} (h : (m >>= f) s = (.ok b, s')) :
    ∃ a s1, m s = (.ok a, s1) ∧ f a s1 = (.ok b, s') := by
  rw [Py.bind_apply] at h
  rcases hm : m s with ⟨r, s1⟩
  rw [hm] at h
  cases r with
  | error e => simp at h
  | ok a => exact ⟨a, s1, rfl, h⟩

theorem etaFit_inv {ops : EtaOps E β α} {d : ExpData β} {s : ArmState E β α} {w : W} {r}
    (h : etaFit ops d (s, w) = (.ok (), r)) : ∃ e1, ops.fit s.eta d = (.ok (), e1) ∧ r = ({ s with eta := e1 }, w) := by
  simp only [etaFit, Prod.mk.injEq] at h
  exact ⟨_, Prod.ext h.1 rfl, h.2.symm⟩

theorem etaScore_inv {ops : EtaOps E β α} {d : ExpData β} {s : ArmState E β α} {w : W} {sc r}
    (h : etaScore ops d (s, w) = (.ok sc, r)) : ∃ e1, ops.score s.eta d = (.ok sc, e1) ∧ r = ({ s with eta := e1 }, w) := by
  simp only [etaScore, Prod.mk.injEq] at h
  exact ⟨_, Prod.ext h.1 rfl, h.2.symm⟩

theorem etaScore_ok {ops : EtaOps E β α} {d : ExpData β} {s : ArmState E β α} {w : W} {sc e1}
    (h : ops.score s.eta d = (.ok sc, e1)) : etaScore ops d (s, w) = (.ok sc, { s with eta := e1 }, w) := by
  simp only [etaScore, h]

theorem etaFit_ok {ops : EtaOps E β α} {d : ExpData β} {s : ArmState E β α} {w : W} {e1}
    (h : ops.fit s.eta d = (.ok (), e1)) : etaFit ops d (s, w) = (.ok (), { s with eta := e1 }, w) := by
  simp only [etaFit, h]

theorem estimate_inv {cfg : SSConfig β α} {ops : EtaOps E β α} {lib : Libm α} {delta : Fl α} {s s' : ArmState E β α}
    {w w' : W} {lo hi : Fl α} (h : ssEstimate cfg ops lib delta (s, w) = (.ok (lo, hi), s', w')) :
    Estimated cfg ops lib delta s lo hi s' ∧ w' = w := by
  unfold ssEstimate at h
  obtain ⟨f0, _, h1, h⟩ := bind_inv h
  obtain ⟨rfl, l, hl, hf0⟩ := fold_inv h1
  obtain ⟨⟨⟩, _, h2, h⟩ := bind_inv h
  obtain ⟨e1, he1, rfl⟩ := etaFit_inv h2
  obtain ⟨_, _, h3, h⟩ := bind_inv h
  simp only [Py.get_apply, Prod.mk.injEq, Except.ok.injEq] at h3
  obtain ⟨rfl, rfl⟩ := h3
  obtain ⟨enough, _, h3, h⟩ := bind_inv h
  simp only [Py.lift_apply, Prod.mk.injEq] at h3
  obtain ⟨hen, rfl⟩ := h3
  cases enough with
  | false =>
    simp only [Bool.not_false, if_true] at h
    have h' : (Except.ok ((Fl.fin 0 : Fl α), (Fl.pinf : Fl α)), ({ s with eta := e1, ate := some .nan, varEst := some .pinf, ci := (some (.fin 0), some .pinf) } : ArmState E β α), w) = ((Except.ok (lo, hi) : Except PyErr _), s', w') := h
    simp only [Prod.mk.injEq, Except.ok.injEq] at h'
    obtain ⟨⟨rfl, rfl⟩, rfl, rfl⟩ := h'
    exact ⟨.few l f0 e1 hl hf0 he1 hen, rfl⟩
  | true =>
    simp only [Bool.not_true, Bool.false_eq_true, if_false] at h
    obtain ⟨f1, _, h3, h⟩ := bind_inv h
    obtain ⟨rfl, l', hl', hf1⟩ := fold_inv h3
    have : l' = l := by rw [show ({ s with eta := e1 } : ArmState E β α).split = s.split from rfl, hl] at hl'; exact (Option.some.inj hl').symm
    subst this
    obtain ⟨sc1, _, h3, h⟩ := bind_inv h
    obtain ⟨e2, he2, rfl⟩ := etaScore_inv h3
    obtain ⟨_, _, h3, h⟩ := bind_inv h
    simp only [Py.modify_apply, Prod.mk.injEq] at h3
    obtain ⟨-, rfl⟩ := h3
    obtain ⟨sc2, _, h3, h⟩ := bind_inv h
    obtain ⟨e3, he3, rfl⟩ := etaScore_inv h3
    obtain ⟨_, _, h3, h⟩ := bind_inv h
    simp only [Py.modify_apply, Prod.mk.injEq] at h3
    obtain ⟨-, rfl⟩ := h3
    by_cases hnan : (Fl.mean (sqDev sc2 (Fl.mean sc1))).isNan = true
    · simp only [hnan, if_true] at h; simp [Py.raise_apply] at h
    · simp only [hnan] at h
      simp only [Bool.not_eq_true] at hnan
      -- setting the interval
      have fin : ∀ (lo' hi' : Fl α) (st : ArmState E β α),
          setCi lo' hi' (st, w) = (.ok (lo, hi), s', w') → lo = lo' ∧ hi = hi' ∧ s' = { st with ci := (some lo, some hi) } ∧ w' = w := by
        intro lo' hi' st hh
        have h' : (Except.ok (lo', hi'), ({ st with ci := (some lo', some hi') } : ArmState E β α), w) = ((Except.ok (lo, hi) : Except PyErr _), s', w') := hh
        simp only [Prod.mk.injEq, Except.ok.injEq] at h'
        obtain ⟨⟨rfl, rfl⟩, rfl, rfl⟩ := h'
        exact ⟨rfl, rfl, rfl, rfl⟩
      cases halg : cfg.alg with
      | chi2 =>
        rw [halg] at h
        obtain ⟨rfl, rfl, rfl, rfl⟩ := fin _ _ _ h
        exact ⟨.enough l' f0 e1 f1 sc1 e2 sc2 e3 _ _ e3 hl hf0 he1 hen hf1 he2 he3 hnan (.chi2 halg), rfl⟩
      | clt =>
        rw [halg] at h
        obtain ⟨sc3, _, h3, h⟩ := bind_inv h
        obtain ⟨e4, he4, rfl⟩ := etaScore_inv h3
        obtain ⟨_, _, h3, h⟩ := bind_inv h
        simp only [Py.get_apply, Prod.mk.injEq, Except.ok.injEq] at h3
        obtain ⟨rfl, rfl⟩ := h3
        obtain ⟨rfl, rfl, rfl, rfl⟩ := fin _ _ _ h
        exact ⟨.enough l' f0 e1 f1 sc1 e2 sc2 e3 _ _ e4 hl hf0 he1 hen hf1 he2 he3 hnan (.clt sc3 e4 halg he4), rfl⟩
      | finiteSample =>
        rw [halg] at h
        by_cases hp : (cfg.tauBound.le (.fin 0) || cfg.burnIn.le (.fin 1) || cfg.subG.le (.fin 0)) = true
        · simp only [hp, if_true] at h; simp [Py.raise_apply] at h
        · simp only [hp] at h
          simp only [Bool.or_eq_true, not_or, Bool.not_eq_true] at hp
          obtain ⟨⟨p1, p2⟩, p3⟩ := hp
          obtain ⟨_, _, h3, h⟩ := bind_inv h
          simp only [Py.get_apply, Prod.mk.injEq, Except.ok.injEq] at h3
          obtain ⟨rfl, rfl⟩ := h3
          obtain ⟨ew, _, h3, h⟩ := bind_inv h
          simp only [Py.lift_apply, Prod.mk.injEq] at h3
          obtain ⟨hew, rfl⟩ := h3
          by_cases hb : (Fl.fin (f1.nUnits : α)).lt cfg.burnIn = true
          · simp only [hb, if_true] at h
            obtain ⟨rfl, rfl, rfl, rfl⟩ := fin _ _ _ h
            exact ⟨.enough l' f0 e1 f1 sc1 e2 sc2 e3 _ _ e3 hl hf0 he1 hen hf1 he2 he3 hnan (.burnIn ew halg p1 p2 p3 hew hb), rfl⟩
          · simp only [hb] at h
            simp only [Bool.not_eq_true] at hb
            cases ew with
            | none => simp [Py.raise_apply] at h
            | some ew =>
              obtain ⟨rfl, rfl, rfl, rfl⟩ := fin _ _ _ h
              exact ⟨.enough l' f0 e1 f1 sc1 e2 sc2 e3 _ _ e3 hl hf0 he1 hen hf1 he2 he3 hnan (.finite ew halg p1 p2 p3 hew hb), rfl⟩
      | other => rw [halg] at h; simp [Py.raise_apply] at h

theorem numPulled_addData (transform : ExpData β → Except PyErr (ExpData β)) (stable : Bool) (rng : Rng W α) (d : ExpData β)
    (st : ArmState E β α × W) : (addData transform stable rng d st).2.1.numPulled = st.1.numPulled := by
  unfold addData
  rw [Py.bind_apply]
  unfold transformAndFold
  rcases transform d with e | t
  · rfl
  · simp only
    rcases t.kFold 2 (rng.perm t.nUnits st.2).1 with e | fs
    · rfl
    · simp only
      rw [Py.bind_ok (Py.get_apply _)]
      simp only
      split
      · unfold appendFolds
        simp only
        split
        · split <;> rfl
        · rfl
      · rfl

/-- a successful update, decomposed -/
theorem ssUpdate_inv {cfg : SSConfig β α} {ops : EtaOps E β α} {lib : Libm α} {rng : Rng W α} {d : ExpData β}
    {delta : Fl α} {s s' : ArmState E β α} {w w' : W} {lo hi : Fl α}
    (h : ssUpdate cfg ops lib rng d delta (s, w) = (.ok (lo, hi), s', w')) :
    ValidDelta delta ∧ ∃ s1, s1.numPulled = s.numPulled + 1 ∧
      addData cfg.transform cfg.stable rng d ({ s with numPulled := s.numPulled + 1, delta := some delta }, w) = (.ok (), s1, w') ∧
      Estimated cfg ops lib delta s1 lo hi s' := by
  by_cases hδ : ValidDelta delta
  · refine ⟨hδ, ?_⟩
    rw [ssUpdate_valid cfg ops lib rng d delta hδ] at h
    obtain ⟨⟨⟩, ⟨s1, w1⟩, h1, h⟩ := bind_inv h
    obtain ⟨h2, rfl⟩ := estimate_inv h
    refine ⟨s1, ?_, h1, h2⟩
    have := numPulled_addData (E := E) cfg.transform cfg.stable rng d ({ s with numPulled := s.numPulled + 1, delta := some delta }, w)
    rw [h1] at this
    exact this
  · rw [ssUpdate_invalid cfg ops lib rng d delta hδ] at h
    simp at h

end Arm
end Verif
