import Verif.Lemmas.Parameters

/-!
# Lemmas about `FrontDoorLinearFiniteZ`
-/

set_option linter.unusedSectionVars false
set_option linter.unusedSimpArgs false

namespace Verif
open Param

namespace Tab
variable {KX KZ α : Type} [DecidableEq KX] [DecidableEq KZ] [Field α] [LinearOrder α]

/-- Two tables that answer all questions in the same way. -/
structure Same (t t' : Tab KX KZ α) : Prop where
  cell : ∀ x z, t'.cell x z = t.cell x z
  zValues : t'.zValues = t.zValues
  xValues : t'.xValues = t.xValues
  ratio : t'.ratio = t.ratio

theorem Same.refl (t : Tab KX KZ α) : Same t t := ⟨fun _ _ => rfl, rfl, rfl, rfl⟩
theorem Same.trans {t t' t'' : Tab KX KZ α} (h : Same t t') (h' : Same t' t'') : Same t t'' :=
  ⟨fun x z => (h'.cell x z).trans (h.cell x z), h'.zValues.trans h.zValues, h'.xValues.trans h.xValues, h'.ratio.trans h.ratio⟩

theorem predict_values (l : List (KX × KZ)) (t : Tab KX KZ α) :
    (t.predict l).2.zValues = t.zValues ∧ (t.predict l).2.xValues = t.xValues ∧ (t.predict l).2.ratio = t.ratio := by
  induction l generalizing t with
  | nil => exact ⟨rfl, rfl, rfl⟩
  | cons p l ih =>
    obtain ⟨x, z⟩ := p
    exact ih { t with table := t.table.set x ((t.table.getD x []).touch z 0) }

theorem predict_same (l : List (KX × KZ)) (t : Tab KX KZ α) : Same t (t.predict l).2 :=
  ⟨(predict_eq l t).2, (predict_values l t).1, (predict_values l t).2.1, (predict_values l t).2.2⟩

end Tab

namespace FrontDoor
variable {M α : Type} [Field α] [LinearOrder α]

theorem look_eq (xs : List (Cell α)) (zs : List (List (Cell α))) (s : FrontDoor M α) :
    ∃ t', s.cpd.Same t' ∧ look xs zs s = (.ok ((xs.zip zs).map fun q => s.cpd.cell q.1 q.2), { s with cpd := t' }) :=
  ⟨(s.cpd.predict (xs.zip zs)).2, Tab.predict_same _ _, by
    simp only [look, zoom, Tab.predictArr, (Tab.predict_eq _ _).1]⟩

/-- What the loop over the support adds to `f_1` for exposure `x`. -/
def f1Sum (R : Predictor M α) (m : M) (t : Tab (Cell α) (List (Cell α)) α) (x : α) (S : List (List (Cell α))) : α :=
  (S.map fun z => R.predict m (x :: z.map Cell.val) * (t.cell (.int 1) (z.take 1) - t.cell (.int 0) (z.take 1))).sum

/-- What the loop over the support adds to `f_3`. -/
def f3Sum (R : Predictor M α) (m : M) (q p1 p0 : α) (S : List (List (Cell α))) : α :=
  (S.map fun z => R.predict m (1 :: z.map Cell.val) * q * p1 + R.predict m (0 :: z.map Cell.val) * (1 - q) * p0).sum

theorem zipWith_map_map {A B C D : Type} (f : B → C → D) (g : A → B) (h : A → C) (l : List A) :
    List.zipWith f (l.map g) (l.map h) = l.map fun a => f (g a) (h a) := by
  induction l with
  | nil => rfl
  | cons a l ih => simp [ih]

theorem supportLoop_eq {U : Type} (R : Predictor M α) (m : M) (q : α) (us : List U) (x p1 p0 : U → α) (S : List (List (Cell α)))
    (hS : ∀ z ∈ S, z ≠ []) (f1 f3 : U → α) (s : FrontDoor M α) :
    ∃ t', s.cpd.Same t' ∧ supportLoop R m q (us.map x) (us.map p1) (us.map p0) S (us.map f1, us.map f3) s =
      (.ok (us.map fun u => f1 u + f1Sum R m s.cpd (x u) S, us.map fun u => f3 u + f3Sum R m q (p1 u) (p0 u) S), { s with cpd := t' }) := by
  induction S generalizing f1 f3 s with
  | nil =>
    refine ⟨s.cpd, Tab.Same.refl _, ?_⟩
    simp [supportLoop, Py.pure_apply, f1Sum, f3Sum]
  | cons z S ih =>
    obtain ⟨z0, zt, rfl⟩ := List.exists_cons_of_ne_nil (hS z (by simp))
    obtain ⟨t1, s1, e1⟩ := look_eq [Cell.int 1] [[z0]] s
    obtain ⟨t2, s2, e2⟩ := look_eq [Cell.int 0] [[z0]] { s with cpd := t1 }
    have s12 : s.cpd.Same t2 := s1.trans s2
    obtain ⟨t3, s3, e3⟩ := ih (fun z hz => hS z (List.mem_cons_of_mem _ hz))
      (fun u => f1 u + R.predict m (x u :: (z0 :: zt).map Cell.val) * (s.cpd.cell (.int 1) [z0] - s.cpd.cell (.int 0) [z0]))
      (fun u => f3 u + (R.predict m (1 :: (z0 :: zt).map Cell.val) * q * p1 u + R.predict m (0 :: (z0 :: zt).map Cell.val) * (1 - q) * p0 u))
      { s with cpd := t2 }
    refine ⟨t3, s12.trans s3, ?_⟩
    unfold supportLoop
    dsimp only
    rw [Py.bind_apply, e1]
    dsimp only
    rw [Py.bind_apply, e2]
    simp only [List.zip_cons_cons, List.zip_nil_left, List.map_cons, List.map_nil, List.headD_cons, List.map_map]
    rw [zipWith_map_map, List.zip_map', zipWith_map_map]
    have h0 : t1.cell (.int 0) [z0] = s.cpd.cell (.int 0) [z0] := s1.cell _ _
    simp only [h0, Function.comp_def]
    simp only [List.map_cons] at e3
    rw [e3]
    simp only [f1Sum, f3Sum, List.map_cons, List.sum_cons, List.take_succ_cons, List.take_zero, add_assoc]
    have h1 : ∀ x z, t2.cell x z = s.cpd.cell x z := s12.cell
    simp only [h1]

/-- The eight nuisance values of one unit. -/
def etaOf (R : Predictor M α) (s : FrontDoor M α) (u : Obs α) : FdEta α :=
  let c := fun p => clip p s.minOverlap (1 - s.minOverlap)
  let p1 := c (s.cpd.cell (.int 1) (rowKey u.z))
  let p0 := c (s.cpd.cell (.int 0) (rowKey u.z))
  ⟨.fin (R.predict s.yResponse (u.xv :: u.zv)), .fin p1, .fin p0, .fin (c (s.cpd.cell u.x.key (rowKey u.z))),
   ((Fl.fin u.xv).div (.fin s.expProb)).sub ((Fl.fin (1 - u.xv)).div (.fin (1 - s.expProb))),
   .fin (f1Sum R s.yResponse s.cpd u.xv s.cpd.zValues),
   .fin (s.expProb * R.predict s.yResponse (1 :: u.zv) + (1 - s.expProb) * R.predict s.yResponse (0 :: u.zv)),
   .fin (f3Sum R s.yResponse s.expProb p1 p0 s.cpd.zValues)⟩

theorem covRows_dataset (c : Nat) (us : List (Obs α)) : covRows (Obs.dataset c us) = .ok (us.map Obs.z) := rfl

theorem transform_dataset (R : Predictor M α) (s : FrontDoor M α) (us : List (Obs α)) (hfit : s.hasBeenFit = true)
    (hne : us ≠ []) (hS : ∀ z ∈ s.cpd.zValues, z ≠ []) :
    ∃ t', s.cpd.Same t' ∧ transform R (Obs.dataset s.covDim us) s = (.ok (us.map (etaOf R s)), { s with cpd := t' }) := by
  have hpr : ∀ f : Obs α → List α, R.predictRows s.yResponse (us.map f) = .ok (us.map fun u => R.predict s.yResponse (f u)) := by
    intro f
    obtain ⟨u, us, rfl⟩ := List.exists_cons_of_ne_nil hne
    simp [Predictor.predictRows, Function.comp_def]
  have hzip : ∀ (f : Obs α → Cell α), (us.map f).zip ((us.map Obs.z).map rowKey) = us.map fun u => (f u, rowKey u.z) := by
    intro f; rw [List.map_map, List.zip_map']; rfl
  have hrep : ∀ {A : Type} (a : A), List.replicate us.length a = us.map fun _ => a := fun a => by rw [List.map_const']
  obtain ⟨t1, s1, e1⟩ := look_eq (us.map fun _ => Cell.int 1) ((us.map Obs.z).map rowKey) s
  obtain ⟨t2, s2, e2⟩ := look_eq (us.map fun _ => Cell.int 0) ((us.map Obs.z).map rowKey) { s with cpd := t1 }
  obtain ⟨t3, s3, e3⟩ := look_eq (us.map fun u => u.x.key) ((us.map Obs.z).map rowKey) { s with cpd := t2 }
  have s12 : s.cpd.Same t2 := s1.trans s2
  have s13 : s.cpd.Same t3 := s12.trans s3
  obtain ⟨t4, s4, e4⟩ := supportLoop_eq R s.yResponse s.expProb us Obs.xv
    (fun u => clip (s.cpd.cell (.int 1) (rowKey u.z)) s.minOverlap (1 - s.minOverlap))
    (fun u => clip (s.cpd.cell (.int 0) (rowKey u.z)) s.minOverlap (1 - s.minOverlap))
    s.cpd.zValues hS (fun _ => 0) (fun _ => 0) { s with cpd := t3 }
  refine ⟨t4, s13.trans s4, ?_⟩
  unfold transform
  simp only [Py.bind_apply, Py.get_apply, Obs.dataset_nFeatures, ne_eq, not_true_eq_false, if_false, hfit, Bool.not_true,
    Bool.false_eq_true, Py.lift_apply, Obs.dataset_exp, Obs.vals_x, Obs.dataset_cStack, hpr, covRows_dataset, Obs.dataset_nUnits,
    Obs.dataset_cStack_const]
  rw [hrep (Cell.int 1), e1]
  dsimp only
  rw [hrep (Cell.int 0), e2]
  dsimp only
  rw [List.map_map, show (Cell.key ∘ Obs.x : Obs α → Cell α) = fun u => u.x.key from rfl, e3]
  dsimp only
  rw [hzip, hzip, hzip]
  have c1 : ∀ x z, t1.cell x z = s.cpd.cell x z := s1.cell
  have c2 : ∀ x z, t2.cell x z = s.cpd.cell x z := s12.cell
  have c3 : ∀ x z, t3.cell x z = s.cpd.cell x z := s13.cell
  simp only [List.map_map, Function.comp_def, c1, c2]
  rw [hrep (0 : α), e4]
  simp only [Py.pure_apply, List.map_map, Function.comp_def, zipWith_map_map, List.zip_map', zero_add]
  have hf1 : ∀ x, f1Sum R s.yResponse t3 x s.cpd.zValues = f1Sum R s.yResponse s.cpd x s.cpd.zValues := by
    intro x; unfold f1Sum; simp only [c3]
  simp only [hf1, hfit]
  rfl

theorem score_dataset [IsStrictOrderedRing α] (R : Predictor M α) (s : FrontDoor M α) (us : List (Obs α)) (hfit : s.hasBeenFit = true)
    (hne : us ≠ []) (hS : ∀ z ∈ s.cpd.zValues, z ≠ []) (ho1 : 0 < s.minOverlap) (ho2 : s.minOverlap ≤ 1 / 2)
    (hq : s.minOverlap ≤ s.expProb ∧ s.expProb ≤ 1 - s.minOverlap) :
    ∃ t', s.cpd.Same t' ∧ score R (Obs.dataset s.covDim us) s = (.ok (us.map fun u => .fin (
      let c := fun p => clip p s.minOverlap (1 - s.minOverlap)
      let p1 := c (s.cpd.cell (.int 1) (rowKey u.z))
      let p0 := c (s.cpd.cell (.int 0) (rowKey u.z))
      frontDoorScore (fun x z => R.predict s.yResponse (x :: z)) s.expProb p1 p0 (c (s.cpd.cell u.x.key (rowKey u.z)))
        (f1Sum R s.yResponse s.cpd u.xv s.cpd.zValues) (f3Sum R s.yResponse s.expProb p1 p0 s.cpd.zValues) u)),
      { s with cpd := t' }) := by
  obtain ⟨t', hs, e⟩ := transform_dataset R s us hfit hne hS
  refine ⟨t', hs, ?_⟩
  unfold score
  rw [Py.bind_apply, e]
  simp only [Py.lift_apply, phi, Obs.dataset_rsp, bind, Except.bind, List.length_map, ne_eq, not_true_eq_false, if_false, pure, Except.pure]
  rw [Obs.vals_y, List.zip_map', List.map_map]
  congr 2
  apply List.map_congr_left
  intro u _
  have hc : ∀ p, clip p s.minOverlap (1 - s.minOverlap) ≠ 0 := by
    intro p h
    have : s.minOverlap ≤ clip p s.minOverlap (1 - s.minOverlap) := le_min (le_max_right _ _) (by linarith)
    linarith
  simp only [Function.comp, phiUnit, etaOf, Fl.div]
  rw [if_neg (hc _), if_neg (hc _), if_neg (by linarith [hq.1] : ¬ s.expProb = 0), if_neg (by intro h; linarith [hq.2])]
  simp only [Fl.sub, Fl.neg, Fl.add, Fl.mul, frontDoorScore]
  congr 1
  ring

end FrontDoor
end Verif
