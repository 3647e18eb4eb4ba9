import Verif.Lemmas.Bandits3

/-!
# Minima of floats, and the stopping tests as functions of the recorded values
-/

set_option linter.unusedSectionVars false
set_option linter.unusedSimpArgs false

namespace Verif

namespace Fl
variable {α : Type} [LinearOrder α]

theorem lt_irrefl (x : Fl α) : lt x x = false := by cases x <;> simp [lt]

theorem le_refl' (x : Fl α) (h : x ≠ nan) : le x x = true := by cases x <;> simp_all [le, lt, eq]

theorem le_trans' (x y z : Fl α) (h : le x y = true) (h' : le y z = true) : le x z = true := by
  cases x <;> cases y <;> cases z <;> simp_all [le, lt, eq, le_iff_lt_or_eq.symm]
  exact h.trans h'

theorem lt_of_lt_of_le' (x y z : Fl α) (h : lt x y = true) (h' : le y z = true) : lt x z = true := by
  cases x <;> cases y <;> cases z <;> simp_all [le, lt, eq, le_iff_lt_or_eq.symm]
  exact lt_of_lt_of_le h h'

theorem lt_of_le_of_lt' (x y z : Fl α) (h : le x y = true) (h' : lt y z = true) : lt x z = true := by
  cases x <;> cases y <;> cases z <;> simp_all [le, lt, eq, le_iff_lt_or_eq.symm]
  exact lt_of_le_of_lt h h'

theorem le_of_not_lt' (x y : Fl α) (hx : x ≠ nan) (hy : y ≠ nan) (h : lt x y = false) : le y x = true := by
  cases x <;> cases y <;> simp_all [le, lt, eq, le_iff_lt_or_eq.symm]

theorem not_lt_of_le' (x y : Fl α) (h : le x y = true) : lt y x = false := by
  cases x <;> cases y <;> simp_all [le, lt, eq, le_iff_lt_or_eq.symm]

theorem le_of_lt' (x y : Fl α) (h : lt x y = true) : le x y = true := by simp [le, h]

theorem eq_iff (x y : Fl α) : eq x y = true ↔ x = y ∧ x ≠ nan := by
  cases x <;> cases y <;> simp [eq]

theorem ne_nan_of_lt (x y : Fl α) (h : lt x y = true) : x ≠ nan ∧ y ≠ nan := by
  cases x <;> cases y <;> simp_all [lt]

theorem ne_nan_of_le (x y : Fl α) (h : le x y = true) : x ≠ nan ∧ y ≠ nan := by
  cases x <;> cases y <;> simp_all [le, lt, eq]

theorem foldl_minStep (l : List (Fl α)) (a : Fl α) :
    (l.foldl minStep a = a ∨ l.foldl minStep a ∈ l) ∧ (a = nan → l.foldl minStep a = nan) ∧
    (a ≠ nan → l.foldl minStep a ≠ nan ∧ le (l.foldl minStep a) a = true ∧ ∀ y ∈ l, y ≠ nan → le (l.foldl minStep a) y = true) := by
  induction l generalizing a with
  | nil => exact ⟨Or.inl rfl, id, fun h => ⟨h, le_refl' a h, by simp⟩⟩
  | cons x l ih =>
    rw [List.foldl_cons]
    by_cases hx : lt x a = true
    · have hm : minStep a x = x := by simp [minStep, hx]
      rw [hm]
      obtain ⟨i1, i2, i3⟩ := ih x
      obtain ⟨hxn, han⟩ := ne_nan_of_lt _ _ hx
      obtain ⟨j1, j2, j3⟩ := i3 hxn
      refine ⟨Or.inr ?_, fun h => absurd h han, fun _ => ⟨j1, ?_, ?_⟩⟩
      · rcases i1 with h | h
        · rw [h]; simp
        · simp [h]
      · exact le_trans' _ _ _ j2 (le_of_lt' _ _ hx)
      · intro y hy hyn
        rcases List.mem_cons.mp hy with rfl | hy
        · exact j2
        · exact j3 y hy hyn
    · have hm : minStep a x = a := by simp [minStep, hx]
      rw [hm]
      obtain ⟨i1, i2, i3⟩ := ih a
      refine ⟨?_, i2, fun han => ?_⟩
      · rcases i1 with h | h
        · exact Or.inl h
        · exact Or.inr (by simp [h])
      · obtain ⟨j1, j2, j3⟩ := i3 han
        refine ⟨j1, j2, ?_⟩
        intro y hy hyn
        rcases List.mem_cons.mp hy with rfl | hy
        · exact le_trans' _ _ _ j2 (le_of_not_lt' _ _ hyn han (by simpa using hx))
        · exact j3 y hy hyn

theorem pyMin_mem {l : List (Fl α)} {m : Fl α} (h : pyMin l = .ok m) : m ∈ l := by
  cases l with
  | nil => simp [pyMin] at h
  | cons x l =>
    simp only [pyMin, Except.ok.injEq] at h
    subst h
    rcases (foldl_minStep l x).1 with h | h
    · rw [h]; simp
    · simp [h]

theorem pyMin_le {l : List (Fl α)} {m : Fl α} (h : pyMin l = .ok m) (hm : m ≠ nan) (y : Fl α) (hy : y ∈ l) (hyn : y ≠ nan) :
    le m y = true := by
  cases l with
  | nil => simp at hy
  | cons x l =>
    simp only [pyMin, Except.ok.injEq] at h
    subst h
    have hx : x ≠ nan := fun hx => hm ((foldl_minStep l x).2.1 hx)
    obtain ⟨j1, j2, j3⟩ := (foldl_minStep l x).2.2 hx
    rcases List.mem_cons.mp hy with rfl | hy
    · exact j2
    · exact j3 y hy hyn

theorem pyMin_nan_iff {x : Fl α} {l : List (Fl α)} {m : Fl α} (h : pyMin (x :: l) = .ok m) : m = nan ↔ x = nan := by
  simp only [pyMin, Except.ok.injEq] at h
  subst h
  constructor
  · intro h
    by_contra hx
    exact ((foldl_minStep l x).2.2 hx).1 h
  · exact (foldl_minStep l x).2.1

theorem pyMin_exists {l : List (Fl α)} (h : l ≠ []) : ∃ m, pyMin l = .ok m := by
  cases l with
  | nil => exact absurd rfl h
  | cons x l => exact ⟨_, rfl⟩

theorem foldl_maxStep (l : List (Fl α)) (a : Fl α) :
    (l.foldl maxStep a = a ∨ l.foldl maxStep a ∈ l) ∧ (a = nan → l.foldl maxStep a = nan) ∧
    (a ≠ nan → l.foldl maxStep a ≠ nan ∧ le a (l.foldl maxStep a) = true ∧ ∀ y ∈ l, y ≠ nan → le y (l.foldl maxStep a) = true) := by
  induction l generalizing a with
  | nil => exact ⟨Or.inl rfl, id, fun h => ⟨h, le_refl' a h, by simp⟩⟩
  | cons x l ih =>
    rw [List.foldl_cons]
    by_cases hx : lt a x = true
    · have hm : maxStep a x = x := by simp [maxStep, hx]
      rw [hm]
      obtain ⟨i1, i2, i3⟩ := ih x
      obtain ⟨han, hxn⟩ := ne_nan_of_lt _ _ hx
      obtain ⟨j1, j2, j3⟩ := i3 hxn
      refine ⟨Or.inr ?_, fun h => absurd h han, fun _ => ⟨j1, ?_, ?_⟩⟩
      · rcases i1 with h | h
        · rw [h]; simp
        · simp [h]
      · exact le_trans' _ _ _ (le_of_lt' _ _ hx) j2
      · intro y hy hyn
        rcases List.mem_cons.mp hy with rfl | hy
        · exact j2
        · exact j3 y hy hyn
    · have hm : maxStep a x = a := by simp [maxStep, hx]
      rw [hm]
      obtain ⟨i1, i2, i3⟩ := ih a
      refine ⟨?_, i2, fun han => ?_⟩
      · rcases i1 with h | h
        · exact Or.inl h
        · exact Or.inr (by simp [h])
      · obtain ⟨j1, j2, j3⟩ := i3 han
        refine ⟨j1, j2, ?_⟩
        intro y hy hyn
        rcases List.mem_cons.mp hy with rfl | hy
        · exact le_trans' _ _ _ (le_of_not_lt' _ _ han hyn (by simpa using hx)) j2
        · exact j3 y hy hyn

theorem pyMax_mem {l : List (Fl α)} {m : Fl α} (h : pyMax l = .ok m) : m ∈ l := by
  cases l with
  | nil => simp [pyMax] at h
  | cons x l =>
    simp only [pyMax, Except.ok.injEq] at h
    subst h
    rcases (foldl_maxStep l x).1 with h | h
    · rw [h]; simp
    · simp [h]

theorem pyMax_le {l : List (Fl α)} {m : Fl α} (h : pyMax l = .ok m) (hm : m ≠ nan) (y : Fl α) (hy : y ∈ l) (hyn : y ≠ nan) :
    le y m = true := by
  cases l with
  | nil => simp at hy
  | cons x l =>
    simp only [pyMax, Except.ok.injEq] at h
    subst h
    have hx : x ≠ nan := fun hx => hm ((foldl_maxStep l x).2.1 hx)
    obtain ⟨j1, j2, j3⟩ := (foldl_maxStep l x).2.2 hx
    rcases List.mem_cons.mp hy with rfl | hy
    · exact j2
    · exact j3 y hy hyn

/-- the scan of `argmin`: with prefix `pre` already read, best value `best` at position `bi` -/
theorem argminAux_spec (l pre : List (Fl α)) (best : Fl α) (bi : Nat) (hb : pre[bi]? = some best)
    (hmin : best ≠ nan → nan ∉ pre ∧ ∀ y ∈ pre, le best y = true) :
    ∃ v, (pre ++ l)[argminAux l pre.length best bi]? = some v ∧
      (v ≠ nan → nan ∉ pre ++ l ∧ ∀ y ∈ pre ++ l, le v y = true) := by
  induction l generalizing pre best bi with
  | nil => exact ⟨best, by simpa [argminAux] using hb, by simpa using hmin⟩
  | cons x l ih =>
    unfold argminAux
    by_cases hn : best.isNan = true
    · rw [if_pos hn]
      refine ⟨best, ?_, ?_⟩
      · rw [List.getElem?_append_left (List.getElem?_eq_some_iff.mp hb).1, hb]
      · intro h; cases best <;> simp_all [isNan]
    · rw [if_neg hn]
      have hbn : best ≠ nan := by rintro rfl; simp [isNan] at hn
      have happ : pre ++ x :: l = (pre ++ [x]) ++ l := by simp
      by_cases hx : (x.isNan || lt x best) = true
      · rw [if_pos hx]
        have := ih (pre ++ [x]) x pre.length (by simp) (by
          intro hxn
          have hlt : lt x best = true := by
            cases x <;> simp_all [isNan]
          refine ⟨?_, ?_⟩
          · simp only [List.mem_append, List.mem_singleton, not_or]
            exact ⟨(hmin hbn).1, fun h => hxn h.symm⟩
          · intro y hy
            rcases List.mem_append.mp hy with hy | hy
            · exact le_trans' _ _ _ (le_of_lt' _ _ hlt) ((hmin hbn).2 y hy)
            · simp only [List.mem_singleton] at hy
              subst hy
              exact le_refl' _ hxn)
        rw [happ]
        simpa using this
      · rw [if_neg hx]
        simp only [Bool.or_eq_true, not_or, Bool.not_eq_true] at hx
        have hxn : x ≠ nan := by rintro rfl; simp [isNan] at hx
        have := ih (pre ++ [x]) best bi (by
          rw [List.getElem?_append_left (List.getElem?_eq_some_iff.mp hb).1, hb]) (by
          intro _
          refine ⟨?_, ?_⟩
          · simp only [List.mem_append, List.mem_singleton, not_or]
            exact ⟨(hmin hbn).1, fun h => hxn h.symm⟩
          · intro y hy
            rcases List.mem_append.mp hy with hy | hy
            · exact (hmin hbn).2 y hy
            · simp only [List.mem_singleton] at hy
              subst hy
              exact le_of_not_lt' _ _ hxn hbn hx.2)
        rw [happ]
        simpa using this

/-- `np.argmin` returns the position of a NaN if there is one, else of a smallest element. -/
theorem argmin_spec {l : List (Fl α)} {i : Nat} (h : argmin l = .ok i) :
    ∃ v, l[i]? = some v ∧ (v ≠ nan → nan ∉ l ∧ ∀ y ∈ l, le v y = true) := by
  cases l with
  | nil => simp [argmin] at h
  | cons x l =>
    simp only [argmin, Except.ok.injEq] at h
    subst h
    have := argminAux_spec l [x] x 0 rfl (by
      intro hx
      refine ⟨by simpa using fun h => hx h.symm, ?_⟩
      intro y hy
      simp only [List.mem_singleton] at hy
      subst hy
      exact le_refl' _ hx)
    simpa using this

end Fl

namespace Bandit
variable {I S W β α : Type} [Field α] [LinearOrder α] [DecidableEq I]

theorem mapM_costTimes {arms : List I} {c : I → Fl α} {o : I → Option (Fl α)} {xs : List (Fl α)}
    (h : arms.mapM (fun a => costTimes (c a) (o a)) = .ok xs) :
    xs = (arms.map fun a => ((o a).map (c a).mul).getD .nan) ∧ ∀ a ∈ arms, (o a).isSome = true := by
  induction arms generalizing xs with
  | nil =>
    simp only [List.mapM_nil, pure, Except.pure, Except.ok.injEq] at h
    subst h; simp
  | cons a l ih =>
    rw [List.mapM_cons] at h
    rcases h1 : costTimes (c a) (o a) with e | x
    · simp [h1, bind, Except.bind] at h
    rcases h2 : l.mapM (fun a => costTimes (c a) (o a)) with e | ys
    · simp [h1, h2, bind, Except.bind] at h
    simp only [h1, h2, bind, Except.bind, pure, Except.pure, Except.ok.injEq] at h
    subst h
    obtain ⟨i1, i2⟩ := ih h2
    have := costTimes_ok h1
    refine ⟨by simp [this, ← i1], ?_⟩
    intro b hb
    rcases List.mem_cons.mp hb with rfl | hb
    · rcases ho : o b with _ | y
      · simp [ho] at this
      · rfl
    · exact i2 b hb

theorem collectBounds_ok {ops : ArmOps S W β α} {arms : List I} {heap : I → S} {ls us vs : List (Fl α)}
    (h : collectBounds ops arms heap = .ok (ls, us, vs)) :
    ls = arms.map (lcbV ops heap) ∧ us = arms.map (ucbV ops heap) ∧ vs = arms.map (varV ops heap) := by
  unfold collectBounds at h
  simp only [bind, Except.bind] at h
  split at h
  · simp at h
  · rename_i us' hu
    split at h
    · simp at h
    · rename_i ls' hl
      split at h
      · simp at h
      · rename_i vs' hv
        simp only [pure, Except.pure, Except.ok.injEq, Prod.mk.injEq] at h
        obtain ⟨rfl, rfl, rfl⟩ := h
        exact ⟨(mapM_costTimes hl).1, (mapM_costTimes hu).1, (mapM_costTimes hv).1⟩

theorem collectBounds_of {ops : ArmOps S W β α} {arms : List I} {heap : I → S}
    (h : ∀ a ∈ arms, (ops.ci (heap a)).1.isSome = true ∧ (ops.ci (heap a)).2.isSome = true ∧ (ops.varEst (heap a)).isSome = true) :
    collectBounds ops arms heap = .ok (arms.map (lcbV ops heap), arms.map (ucbV ops heap), arms.map (varV ops heap)) := by
  have key : ∀ (c : Fl α) (o : Option (Fl α)), o.isSome = true → costTimes c o = .ok ((o.map c.mul).getD .nan) := by
    intro c o ho
    cases o <;> simp_all [costTimes]
  unfold collectBounds
  rw [mapM_ok_of _ (ucbV ops heap) arms fun a ha => key _ _ (h a ha).2.1,
    mapM_ok_of _ (lcbV ops heap) arms fun a ha => key _ _ (h a ha).1,
    mapM_ok_of _ (varV ops heap) arms fun a ha => key _ _ (h a ha).2.2]
  rfl

/-- The stopping test passed: what it saw. -/
theorem endCondition_ok {arms : List I} {tol : Fl α} {ls us vs : List (Fl α)} {best : List I}
    (h : endCondition arms tol ls us vs = .ok (true, best)) :
    ∃ i b u m, Fl.argmin vs = .ok i ∧ arms[i]? = some b ∧ best = [b] ∧ us[i]? = some u ∧ Fl.pyMin (ls.eraseIdx i) = .ok m ∧
      u.lt (m.sub tol) = true ∧ us.any Fl.isInf = false ∧ ∃ v, Fl.pyMin vs = .ok v ∧ v ≠ .nan := by
  unfold endCondition at h
  split at h
  · simp at h
  rename_i hinf
  simp only [bind, Except.bind] at h
  rcases hm : Fl.pyMin vs with e | v
  · simp [hm] at h
  simp only [hm] at h
  split at h
  · simp at h
  rename_i hn
  rcases ha : Fl.argmin vs with e | i
  · simp [ha] at h
  simp only [ha] at h
  rcases hu : at? us i with e | u
  · simp [hu] at h
  simp only [hu] at h
  rcases hr : Fl.pyMin (ls.eraseIdx i) with e | m
  · simp [hr] at h
  simp only [hr] at h
  rcases hb : arms[i]? with _ | b
  · simp [hb] at h
  simp only [hb, Except.ok.injEq, Prod.mk.injEq] at h
  refine ⟨i, b, u, m, rfl, hb, h.2.symm, ?_, hr, h.1, by simpa using hinf, v, rfl, ?_⟩
  · unfold at? at hu
    rcases hx : us[i]? with _ | x
    · simp [hx] at hu
    · simpa [hx] using hu
  · rintro rfl; simp [Fl.isNan] at hn

theorem checkEnd_ok {ops : ArmOps S W β α} {cfg : BanditCfg I α} {heap : I → S} {r : Bool × List I}
    (h : checkEnd ops cfg heap = .ok r) :
    endCondition cfg.arms cfg.errorTol (cfg.arms.map (lcbV ops heap)) (cfg.arms.map (ucbV ops heap)) (cfg.arms.map (varV ops heap)) = .ok r := by
  unfold checkEnd at h
  rcases hc : collectBounds ops cfg.arms heap with e | ⟨ls, us, vs⟩
  · simp [hc, bind, Except.bind] at h
  obtain ⟨rfl, rfl, rfl⟩ := collectBounds_ok hc
  simpa [hc, bind, Except.bind] using h

theorem getElem?_inj_of_nodup {l : List I} (h : l.Nodup) {i j : Nat} {a : I} (hi : l[i]? = some a) (hj : l[j]? = some a) : i = j := by
  obtain ⟨h1, h1'⟩ := List.getElem?_eq_some_iff.mp hi
  obtain ⟨h2, h2'⟩ := List.getElem?_eq_some_iff.mp hj
  exact (List.Nodup.getElem_inj_iff h).mp (h1'.trans h2'.symm)

theorem mem_eraseIdx_map {γ : Type} (f : I → γ) {l : List I} {i j : Nat} {a : I} (hj : l[j]? = some a) (hij : j ≠ i) :
    f a ∈ (l.map f).eraseIdx i := by
  rw [List.mem_eraseIdx_iff_getElem?]
  exact ⟨j, hij, by simp [hj]⟩

/-- The stopping test passed, in terms of the values of the arms. -/
theorem checkEnd_true {ops : ArmOps S W β α} {cfg : BanditCfg I α} {heap : I → S} {best : List I}
    (hnd : cfg.arms.Nodup) (h : checkEnd ops cfg heap = .ok (true, best)) :
    ∃ b m, b ∈ cfg.arms ∧ best = [b] ∧ (ucbV ops heap b).lt (m.sub cfg.errorTol) = true ∧
      (∀ a ∈ cfg.arms, a ≠ b → lcbV ops heap a ≠ .nan → m.le (lcbV ops heap a) = true) ∧
      (∃ a ∈ cfg.arms, a ≠ b ∧ m = lcbV ops heap a) ∧
      (∀ a ∈ cfg.arms, (ucbV ops heap a).isInf = false) ∧
      (varV ops heap b ≠ .nan → ∀ a ∈ cfg.arms, (varV ops heap b).le (varV ops heap a) = true) ∧
      ((∃ a ∈ cfg.arms, varV ops heap a = .nan) → varV ops heap b = .nan) := by
  obtain ⟨i, b, u, m, h1, h2, h3, h4, h5, h6, h7, v, h8, h9⟩ := endCondition_ok (checkEnd_ok h)
  have hb : b ∈ cfg.arms := List.mem_of_getElem? h2
  have hu : u = ucbV ops heap b := by
    rw [List.getElem?_map, h2] at h4; simpa using h4.symm
  subst hu
  have hm : m ≠ .nan := by
    rintro rfl
    have : (Fl.nan : Fl α).sub cfg.errorTol = .nan := by cases cfg.errorTol <;> rfl
    rw [this] at h6
    exact (Fl.ne_nan_of_lt _ _ h6).2 rfl
  refine ⟨b, m, hb, h3, h6, ?_, ?_, ?_, ?_, ?_⟩
  · intro a ha hab hn
    obtain ⟨j, hj⟩ := List.mem_iff_getElem?.mp ha
    refine Fl.pyMin_le h5 hm _ (mem_eraseIdx_map _ hj ?_) hn
    rintro rfl
    exact hab (by rw [h2] at hj; simpa using hj.symm)
  · have := Fl.pyMin_mem h5
    rw [List.mem_eraseIdx_iff_getElem?] at this
    obtain ⟨j, hj, hx⟩ := this
    rw [List.getElem?_map] at hx
    rcases ha : cfg.arms[j]? with _ | a
    · simp [ha] at hx
    · simp only [ha, Option.map_some, Option.some.injEq] at hx
      exact ⟨a, List.mem_of_getElem? ha, fun hab => hj (getElem?_inj_of_nodup hnd (hab ▸ ha) h2), hx.symm⟩
  · intro a ha
    rw [List.any_eq_false] at h7
    simpa using h7 _ (List.mem_map_of_mem ha)
  · intro hn a ha
    obtain ⟨w, hw, hw'⟩ := Fl.argmin_spec h1
    rw [List.getElem?_map, h2] at hw
    simp only [Option.map_some, Option.some.injEq] at hw
    subst hw
    exact (hw' hn).2 _ (List.mem_map_of_mem ha)
  · rintro ⟨a, ha, han⟩
    obtain ⟨w, hw, hw'⟩ := Fl.argmin_spec h1
    rw [List.getElem?_map, h2] at hw
    simp only [Option.map_some, Option.some.injEq] at hw
    subst hw
    by_contra hne
    exact (hw' hne).1 (by rw [← han]; exact List.mem_map_of_mem ha)

theorem lowestVarArms_ok {ops : ArmOps S W β α} {cfg : BanditCfg I α} {heap : I → S} {best : List I}
    (h : lowestVarArms ops cfg heap = .ok best) :
    (cfg.arms = [] ∧ best = []) ∨ ∃ m, Fl.pyMin (cfg.arms.map (varV ops heap)) = .ok m ∧
      best = cfg.arms.filter fun a => (varV ops heap a).eq m := by
  unfold lowestVarArms at h
  rcases hc : collectBounds ops cfg.arms heap with e | ⟨ls, us, vs⟩
  · simp [hc, bind, Except.bind] at h
  obtain ⟨rfl, rfl, rfl⟩ := collectBounds_ok hc
  simp only [hc, bind, Except.bind] at h
  rcases ha : cfg.arms with _ | ⟨a, l⟩
  · left
    simp only [ha, minMask, List.map_nil, pure, Except.pure, Except.ok.injEq] at h
    exact ⟨rfl, by rw [← h]; rfl⟩
  · right
    rw [← ha]
    obtain ⟨m, hm⟩ := Fl.pyMin_exists (l := cfg.arms.map (varV ops heap)) (by simp [ha])
    refine ⟨m, hm, ?_⟩
    have : minMask (cfg.arms.map (varV ops heap)) = .ok ((cfg.arms.map (varV ops heap)).map (·.eq m)) := by
      unfold minMask
      split
      · rename_i h0; simp [ha] at h0
      · simp [hm, bind, Except.bind, pure, Except.pure]
    simp only [this, pure, Except.pure, Except.ok.injEq] at h
    rw [← h, selectMask, List.map_map, show ((fun x => Fl.eq x m) ∘ varV ops heap) = fun a => (varV ops heap a).eq m from rfl,
      ExpData.filterMask_eq_filter]

/-! ## Last recorded entries -/

theorem Rounds.last {ops : ArmOps S W β α} {h0 h : I → S} {rs : List (RoundRec I S β α)} (hr : Rounds ops h0 rs h)
    {r : RoundRec I S β α} (hl : rs.getLast? = some r) : r.heap = h := by
  cases hr with
  | nil => simp at hl
  | snoc h1 h2 => simp only [List.getLast?_append, List.getLast?_singleton] at hl; simp at hl; rw [hl]

theorem Ran.entry {ops : ArmOps S W β α} {cfg : BanditCfg I α} {heap0 heap' : I → S} {rs : List (RoundRec I S β α)}
    {bd : BanditData I α} (hr : Ran ops cfg heap0 rs bd heap') {a : I} (ha : a ∈ cfg.arms) {t : Nat} {r : RoundRec I S β α}
    (ht : rs[t]? = some r) :
    (bd.lcb a)[t]? = some (lcbV ops r.heap a) ∧ (bd.ucb a)[t]? = some (ucbV ops r.heap a) ∧
    (bd.var a)[t]? = some (varV ops r.heap a) ∧ (bd.samples a)[t]? = some (if a ∈ r.arms then cfg.unitsPerRound else 0) := by
  have key : ∀ (xs : List (Fl α)) (f : RoundRec I S β α → Option (Fl α)), xs.map some = rs.map f → xs[t]? = some ((f r).getD .nan) := by
    intro xs f h
    have h1 : (xs.map some)[t]? = (rs.map f)[t]? := by rw [h]
    rw [List.getElem?_map, List.getElem?_map, ht] at h1
    rcases hx : xs[t]? with _ | x
    · simp [hx] at h1
    · simp only [hx, Option.map_some, Option.some.injEq] at h1
      rw [← h1]; rfl
  refine ⟨key _ _ (hr.faithful.lcb a ha), key _ _ (hr.faithful.ucb a ha), key _ _ (hr.faithful.var a ha), ?_⟩
  rw [hr.faithful.samples a ha, List.getElem?_map, ht]; rfl

theorem Ran.lengths {ops : ArmOps S W β α} {cfg : BanditCfg I α} {heap0 heap' : I → S} {rs : List (RoundRec I S β α)}
    {bd : BanditData I α} (hr : Ran ops cfg heap0 rs bd heap') {a : I} (ha : a ∈ cfg.arms) :
    (bd.lcb a).length = rs.length ∧ (bd.ucb a).length = rs.length ∧ (bd.var a).length = rs.length ∧ (bd.samples a).length = rs.length := by
  have h1 := congrArg List.length (hr.faithful.lcb a ha)
  have h2 := congrArg List.length (hr.faithful.ucb a ha)
  have h3 := congrArg List.length (hr.faithful.var a ha)
  have h4 := congrArg List.length (hr.faithful.samples a ha)
  simp only [List.length_map] at h1 h2 h3 h4
  exact ⟨h1, h2, h3, h4⟩

theorem Ran.final {ops : ArmOps S W β α} {cfg : BanditCfg I α} {heap0 heap' : I → S} {rs : List (RoundRec I S β α)}
    {bd : BanditData I α} (hr : Ran ops cfg heap0 rs bd heap') (hne : rs ≠ []) {a : I} (ha : a ∈ cfg.arms) :
    bd.finalLcb a = some (lcbV ops heap' a) ∧ bd.finalUcb a = some (ucbV ops heap' a) ∧ bd.finalVar a = some (varV ops heap' a) := by
  obtain ⟨r, hl⟩ : ∃ r, rs.getLast? = some r := by
    rcases h : rs.getLast? with _ | r
    · simp at h; exact absurd h hne
    · exact ⟨r, rfl⟩
  have hh := Rounds.last hr.rounds hl
  rw [List.getLast?_eq_getElem?] at hl
  obtain ⟨e1, e2, e3, _⟩ := hr.entry ha hl
  obtain ⟨l1, l2, l3, _⟩ := hr.lengths ha
  rw [hh] at e1 e2 e3
  refine ⟨?_, ?_, ?_⟩
  · rw [BanditData.finalLcb, List.getLast?_eq_getElem?, l1]; exact e1
  · rw [BanditData.finalUcb, List.getLast?_eq_getElem?, l2]; exact e2
  · rw [BanditData.finalVar, List.getLast?_eq_getElem?, l3]; exact e3

end Bandit
end Verif
