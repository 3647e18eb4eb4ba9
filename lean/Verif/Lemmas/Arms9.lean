import Verif.Lemmas.Arms3

/-!
# Forward evaluation of the estimation phase
-/

set_option linter.unusedSectionVars false

namespace Verif
namespace Arm
open ExpData
variable {E β α W : Type} [Field α] [LinearOrder α]

theorem estimate_fwd {cfg : SSConfig β α} {ops : EtaOps E β α} {lib : Libm α} {delta : Fl α} {s s' : ArmState E β α}
    {lo hi : Fl α} (h : Estimated cfg ops lib delta s lo hi s') (w : W) :
    ssEstimate cfg ops lib delta (s, w) = (.ok (lo, hi), s', w) := by
  unfold ssEstimate
  cases h with
  | few l f0 e1 a b c d =>
    rw [Py.bind_ok (fold_ok a b), Py.bind_ok (etaFit_ok c), Py.bind_ok (Py.get_apply _)]
    dsimp only
    rw [d, Py.bind_ok (Py.lift_apply _ _)]
    rfl
  | enough l f0 e1 f1 sc1 e2 sc2 e3 lo hi e4 a b c d e f g hn hi' =>
    rw [Py.bind_ok (fold_ok a b), Py.bind_ok (etaFit_ok c), Py.bind_ok (Py.get_apply _)]
    dsimp only
    rw [d, Py.bind_ok (Py.lift_apply _ _)]
    simp only [Bool.not_true, Bool.false_eq_true, if_false]
    rw [Py.bind_ok (fold_ok (show ({ s with eta := e1 } : ArmState E β α).split = some l from a) e),
      Py.bind_ok (etaScore_ok (show ops.score ({ s with eta := e1 } : ArmState E β α).eta f1 = _ from f)),
      Py.bind_ok (Py.modify_apply _ _)]
    dsimp only
    rw [Py.bind_ok (etaScore_ok (s := { s with eta := e2, ate := some (Fl.mean sc1) }) g), Py.bind_ok (Py.modify_apply _ _)]
    simp only [hn]
    cases hi' with
    | chi2 halg => rw [halg]; rfl
    | clt sc3 e5 halg hsc =>
      rw [halg]
      simp only [Bool.false_eq_true, if_false]
      rw [Py.bind_ok (etaScore_ok (s := { s with eta := e3, ate := some (Fl.mean sc1), varEst := some (Fl.mean (sqDev sc2 (Fl.mean sc1))) }) hsc)]
      rfl
    | burnIn ew halg p1 p2 p3 p4 p5 =>
      rw [halg]
      simp only [p1, p2, p3, Bool.or_self, Bool.false_eq_true, if_false]
      rw [Py.bind_ok (Py.get_apply _)]
      dsimp only
      rw [p4, Py.bind_ok (Py.lift_apply _ _)]
      simp only [p5, if_true]
      rfl
    | finite ew halg p1 p2 p3 p4 p5 =>
      rw [halg]
      simp only [p1, p2, p3, Bool.or_self, Bool.false_eq_true, if_false]
      rw [Py.bind_ok (Py.get_apply _)]
      dsimp only
      rw [p4, Py.bind_ok (Py.lift_apply _ _)]
      simp only [p5, Bool.false_eq_true, if_false]
      rfl

/-- the data are filed when the batch transforms to a well-formed dataset of the kind already stored -/
theorem addData_ready (transform : ExpData β → Except PyErr (ExpData β)) (stable : Bool) (rng : Rng W α) (d t : ExpData β)
    (ht : transform d = .ok t) (hwf : t.WF) (s : ArmState E β α) (w : W) (hr : Ready stable s t) :
    ∃ f0 f1 w', addData transform stable rng d (s, w) = (.ok (), { s with split := some [f0, f1] }, w') ∧ f0.WF ∧ f1.WF := by
  rcases hr with h | h | ⟨a, b, h1, h2, h3, h4, h5⟩
  · obtain ⟨f0, f1, I, J, w', h1, h2, h3, h4, -⟩ := addData_set (E := E) transform stable rng d t ht hwf s w (Or.inl h)
    exact ⟨f0, f1, w', h1, h3, h4⟩
  · obtain ⟨f0, f1, I, J, w', h1, h2, h3, h4, -⟩ := addData_set (E := E) transform stable rng d t ht hwf s w (Or.inr h)
    exact ⟨f0, f1, w', h1, h3, h4⟩
  · cases stable with
    | false =>
      obtain ⟨f0, f1, I, J, w', h1, h2, h3, h4, -⟩ := addData_set (E := E) transform false rng d t ht hwf s w (Or.inr rfl)
      exact ⟨f0, f1, w', h1, h3, h4⟩
    | true =>
      obtain ⟨f0, f1, I, J, w', h6, h7, h8, h9, -⟩ := addData_append (E := E) transform rng d t ht hwf s w a b h1 h2 h3 h4 h5
      exact ⟨f0, f1, w', h6, h8, h9⟩

theorem addData_ready_le (transform : ExpData β → Except PyErr (ExpData β)) (stable : Bool) (rng : Rng W α) (d t : ExpData β)
    (ht : transform d = .ok t) (hwf : t.WF) (s : ArmState E β α) (w : W) (hr : Ready stable s t) :
    ∃ f0 f1 w', addData transform stable rng d (s, w) = (.ok (), { s with split := some [f0, f1] }, w') ∧
      f1.nUnits ≤ ssNumUnits s + t.nUnits := by
  have hset : s.split = none ∨ stable = false → ∃ f0 f1 w', addData transform stable rng d (s, w) = (.ok (), { s with split := some [f0, f1] }, w') ∧
      f1.nUnits ≤ ssNumUnits s + t.nUnits := by
    intro h
    obtain ⟨f0, f1, I, J, w', h1, h2, -, -, -, -, -, h3⟩ := addData_set (E := E) transform stable rng d t ht hwf s w h
    refine ⟨f0, f1, w', h1, ?_⟩
    have h6 := h2.length_eq
    simp only [List.length_append, List.length_range] at h6
    have h8 : f1.nUnits = J.length := by rw [← units_length, h3, List.length_map]
    omega
  rcases hr with h | h | ⟨a, b, h1, h2, h3, h4, h5⟩
  · exact hset (Or.inl h)
  · exact hset (Or.inr h)
  · cases stable with
    | false => exact hset (Or.inr rfl)
    | true =>
      obtain ⟨f0, f1, I, J, w', h6, h7, -, -, -, -, -, h8⟩ := addData_append (E := E) transform rng d t ht hwf s w a b h1 h2 h3 h4 h5
      refine ⟨f0, f1, w', h6, ?_⟩
      have h9 := h7.length_eq
      simp only [List.length_append, List.length_range] at h9
      have h10 : f1.nUnits = b.nUnits + J.length := by rw [← units_length, h8, List.length_append, List.length_map, units_length]
      simp only [ssNumUnits, h1, List.map_cons, List.map_nil, List.sum_cons, List.sum_nil]
      omega

end Arm
end Verif
