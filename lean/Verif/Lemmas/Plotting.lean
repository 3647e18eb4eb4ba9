import Verif.Spec.Plotting
import Verif.Lemmas.Bandits3

/-!
# Lemmas on plots
-/

set_option linter.unusedSectionVars false

namespace Verif
namespace Plotting
variable {I S W β α : Type} [DecidableEq I]

theorem sliceFrom_eq {γ : Type} (k : Option Int) (l : List γ) : sliceFrom k l = l.drop (omitted k l.length) := by
  match k with
  | none => simp [sliceFrom, omitted]
  | some (.ofNat k) => simp [sliceFrom, omitted]
  | some (.negSucc k) =>
    simp only [sliceFrom, omitted]
    rw [if_neg (by omega)]
    congr 1

theorem plotLine_ok (label : Option String) (x : List Nat) (y : List (Fl α)) (h : y.length = x.length) (ax : List (Artist α)) :
    plotLine label x y ax = (.ok (), ax ++ [.line label x y]) := by
  simp [plotLine, h, Py.modify_apply]

theorem fillBetween_ok (x : List Nat) (lo hi : List (Fl α)) (h : lo.length = x.length) (h' : hi.length = x.length)
    (ax : List (Artist α)) : fillBetween x lo hi ax = (.ok (), ax ++ [.band x lo hi]) := by
  simp [fillBetween, h, h', Py.modify_apply]

/-- What `plotArm` draws. -/
def armArtists (name : I → String) (bd : BanditData I α) (k : Nat) (a : I) : List (Artist α) :=
  [.line (some (name a)) (bd.cum.drop k) ((bd.var a).drop k), .line none (bd.cum.drop k) ((bd.lcb a).drop k),
   .line none (bd.cum.drop k) ((bd.ucb a).drop k), .band (bd.cum.drop k) ((bd.lcb a).drop k) ((bd.ucb a).drop k)]

theorem plotArm_ok (name : I → String) (keys : List I) (bd : BanditData I α) (k : Option Int) (a : I) (ha : a ∈ keys)
    (hv : (bd.var a).length = bd.cum.length) (hl : (bd.lcb a).length = bd.cum.length)
    (hu : (bd.ucb a).length = bd.cum.length) (ax : List (Artist α)) :
    plotArm name keys bd k a ax = (.ok (), ax ++ armArtists name bd (omitted k bd.cum.length) a) := by
  unfold plotArm
  simp only [ha, not_true_eq_false, if_false, sliceFrom_eq, hv, hl, hu]
  rw [Py.bind_apply, plotLine_ok _ _ _ (by simp [hv])]
  simp only
  rw [Py.bind_apply, plotLine_ok _ _ _ (by simp [hl])]
  simp only
  rw [Py.bind_apply, plotLine_ok _ _ _ (by simp [hu])]
  simp only
  rw [fillBetween_ok _ _ _ (by simp [hl]) (by simp [hu])]
  simp [armArtists]

theorem plotArm_unknown (name : I → String) (keys : List I) (bd : BanditData I α) (k : Option Int) (a : I) (ha : a ∉ keys)
    (ax : List (Artist α)) : plotArm name keys bd k a ax = (.error .keyError, ax) := by
  unfold plotArm
  simp [ha, Py.raise_apply]

theorem plot_ok (name : I → String) (keys : List I) (bd : BanditData I α) (k : Option Int)
    (h : ∀ a ∈ keys, (bd.var a).length = bd.cum.length ∧ (bd.lcb a).length = bd.cum.length ∧ (bd.ucb a).length = bd.cum.length)
    (arms : List I) (ha : ∀ a ∈ arms, a ∈ keys) (ax : List (Artist α)) :
    plotBanditResults name keys bd k arms ax =
      (.ok (), ax ++ (arms.map (armArtists name bd (omitted k bd.cum.length))).flatten) := by
  induction arms generalizing ax with
  | nil => simp [plotBanditResults, Py.pure_apply]
  | cons a as ih =>
    have hk := ha a List.mem_cons_self
    unfold plotBanditResults
    rw [Py.bind_apply, plotArm_ok name keys bd k a hk (h a hk).1 (h a hk).2.1 (h a hk).2.2]
    simp only
    rw [ih fun b hb => ha b (List.mem_cons_of_mem _ hb)]
    simp

theorem plot_unknown (name : I → String) (keys : List I) (bd : BanditData I α) (k : Option Int)
    (h : ∀ a ∈ keys, (bd.var a).length = bd.cum.length ∧ (bd.lcb a).length = bd.cum.length ∧ (bd.ucb a).length = bd.cum.length)
    (known : List I) (ha : ∀ a ∈ known, a ∈ keys) (b : I) (hb : b ∉ keys) (rest : List I) (ax : List (Artist α)) :
    plotBanditResults name keys bd k (known ++ b :: rest) ax =
      (.error .keyError, ax ++ (known.map (armArtists name bd (omitted k bd.cum.length))).flatten) := by
  induction known generalizing ax with
  | nil => simp [plotBanditResults, Py.bind_apply, plotArm_unknown name keys bd k b hb]
  | cons a as ih =>
    have hk := ha a List.mem_cons_self
    rw [List.cons_append]
    unfold plotBanditResults
    rw [Py.bind_apply, plotArm_ok name keys bd k a hk (h a hk).1 (h a hk).2.1 (h a hk).2.2]
    simp only
    rw [ih fun b hb => ha b (List.mem_cons_of_mem _ hb)]
    simp

variable [Field α] [LinearOrder α]

theorem faithful_lengths {ops : ArmOps S W β α} {arms : List I} {u : Nat} {rs : List (RoundRec I S β α)} {bd : BanditData I α}
    (hf : Faithful ops arms u rs bd) : ∀ a ∈ arms, (bd.var a).length = bd.cum.length ∧ (bd.lcb a).length = bd.cum.length ∧
      (bd.ucb a).length = bd.cum.length := by
  intro a ha
  have h1 := congrArg List.length (hf.var a ha)
  have h2 := congrArg List.length (hf.lcb a ha)
  have h3 := congrArg List.length (hf.ucb a ha)
  simp only [List.length_map] at h1 h2 h3
  rw [hf.cum]
  exact ⟨h1, h2, h3⟩

/-- An entry of a recorded history. -/
theorem entry_of_map {R : Type} {l : List (Fl α)} {rs : List R} {f : R → Option (Fl α)} {c : R → Fl α}
    (h : l.map some = rs.map fun r => (f r).map (c r).mul) {t : Nat} {r : R} (hr : rs[t]? = some r) :
    ∃ v, f r = some v ∧ l[t]? = some ((c r).mul v) := by
  have h1 := congrArg (fun l => l[t]?) h
  simp only [List.getElem?_map, hr, Option.map_some] at h1
  cases hl : l[t]? with
  | none => rw [hl] at h1; simp at h1
  | some x =>
    rw [hl] at h1
    cases hf : f r with
    | none => rw [hf] at h1; simp at h1
    | some v =>
      rw [hf] at h1
      simp only [Option.map_some, Option.some.injEq] at h1
      exact ⟨v, rfl, by rw [h1]⟩

theorem shows_of_faithful {ops : ArmOps S W β α} {keys : List I} {u : Nat} {rs : List (RoundRec I S β α)} {bd : BanditData I α}
    (hf : Faithful ops keys u rs bd) (hc : ∀ t < rs.length, bd.cum[t]? = some (unitsUsed u rs t)) (name : I → String) (k : Nat)
    (a : I) (ha : a ∈ keys) : Shows ops u rs k (name a) a (armArtists name bd k a) := by
  obtain ⟨l1, l2, l3⟩ := faithful_lengths hf a ha
  refine ⟨_, _, _, _, rfl, by simp [hf.cum], by simp [l1, hf.cum], by simp [l2, hf.cum], by simp [l3, hf.cum], ?_⟩
  intro j r hr
  have hlt := (List.getElem?_eq_some_iff.mp hr).1
  simp only [List.getElem?_drop]
  refine ⟨hc _ hlt, ?_, ?_, ?_⟩
  · exact entry_of_map (hf.var a ha) hr
  · exact entry_of_map (hf.lcb a ha) hr
  · exact entry_of_map (hf.ucb a ha) hr

end Plotting
end Verif
