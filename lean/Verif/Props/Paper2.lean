import Verif.Props.Paper

/-!
# Property C59: which covariates the arms of the paper's example observe
-/

set_option linter.unusedSectionVars false
set_option linter.unusedSimpArgs false

namespace Verif
namespace Paper

variable {β W : Type}

theorem gather_range' {γ : Type} (s n : Nat) (l : List γ) : ExpData.gather (List.range' s n) l = (l.drop s).take n := by
  induction n generalizing s with
  | zero => simp [ExpData.gather]
  | succ n ih =>
    rw [List.range'_succ]
    unfold ExpData.gather at ih ⊢
    rw [List.filterMap_cons]
    by_cases h : s < l.length
    · rw [List.getElem?_eq_getElem h]
      simp only
      rw [ih, List.drop_eq_getElem_cons h, List.take_succ_cons]
    · rw [List.getElem?_eq_none (by omega)]
      simp only
      rw [ih, List.drop_eq_nil_of_le (by omega), List.drop_eq_nil_of_le (by omega)]
      simp

/-- In variables laid side by side, the columns of a variable hold that variable. -/
theorem gather_columnsOf {γ : Type} (order : List String) (dim : String → Nat) (f : String → List γ) (v : String) (hv : v ∈ order)
    (hf : ∀ u ∈ order, (f u).length = dim u) :
    ExpData.gather (columnsOf order dim v) (order.map f).flatten = f v := by
  unfold columnsOf
  rw [gather_range']
  induction order with
  | nil => simp at hv
  | cons a l ih =>
    by_cases h : a = v
    · subst h
      simp [List.takeWhile_cons, ← hf a (by simp)]
    · have hv' : v ∈ l := by
        rcases List.mem_cons.mp hv with h' | h'
        · exact absurd h'.symm h
        · exact h'
      rw [List.takeWhile_cons, if_pos (by simpa using h), List.map_cons, List.sum_cons, List.map_cons, List.flatten_cons,
        ← hf a (by simp), ← List.drop_drop, List.drop_left]
      exact ih hv' fun u hu => hf u (by simp [hu])

theorem columnsOf_lt (order : List String) (dim : String → Nat) (v : String) (hv : v ∈ order) :
    ∀ i ∈ columnsOf order dim v, i < (order.map dim).sum := by
  intro i hi
  unfold columnsOf at hi
  rw [List.mem_range'_1] at hi
  refine lt_of_lt_of_le hi.2 ?_
  clear hi
  induction order with
  | nil => simp at hv
  | cons a l ih =>
    by_cases h : a = v
    · subst h; simp [List.takeWhile_cons]
    · have hv' : v ∈ l := by
        rcases List.mem_cons.mp hv with h' | h'
        · exact absurd h'.symm h
        · exact h'
      rw [List.takeWhile_cons, if_pos (by simpa using h)]
      have := ih hv'
      simp only [List.map_cons, List.sum_cons]
      omega

/-- The mask function on non-negative in-range coordinates. -/
theorem coordMask_nat (c : Nat) (rows : List (List β)) (coords : List Nat) (e r : Option (List β)) (h : ∀ i ∈ coords, i < c) :
    ExpData.coordMask (coords.map Int.ofNat) (ExpData.new (some (.d2 c rows)) e r) =
      .ok (ExpData.new (some (.d2 coords.length (rows.map (ExpData.gather coords)))) e r) := by
  rw [ExpData.coordMask_eq _ _ c rows rfl, if_pos]
  · have : (coords.map Int.ofNat).filterMap (ExpData.column c) = coords := by
      rw [List.filterMap_map]
      conv_rhs => rw [← List.filterMap_some (l := coords)]
      apply List.filterMap_congr
      intro i hi
      have := h i hi
      simp [ExpData.column, this]
    rw [this]
    simp [ExpData.new]
  · intro i hi
    obtain ⟨k, hk, rfl⟩ := List.mem_map.mp hi
    have := h k hk
    simp [ExpData.column, this]

/-- The generated covariates form a 2-D array. -/
theorem generate_d2 {V : Type} [DecidableEq V] (S : SCM V β W) (n : Nat) (w w' : W) (smp : Sample β) (h : S.generate n w = (.ok smp, w')) :
    ∃ c rows, smp.cov = .d2 c rows := by
  unfold SCM.generate at h
  split at h
  · simp at h
  · rename_i samples w1 hs
    simp only [bind, Except.bind, pure, Except.pure, Prod.mk.injEq] at h
    obtain ⟨h, -⟩ := h
    split at h
    · simp at h
    · split at h
      · simp at h
      · rename_i x hx
        have hd : ∃ c rows, x = .d2 c rows := by
          unfold SCM.columnStack at hx
          split at hx
          · simp at hx
          · split at hx
            · simp at hx
            · simp at hx; exact ⟨_, _, hx.symm⟩
        split at h
        · simp at h
        · split at h
          · simp at h
          · split at h
            · simp at h; rw [← h]; exact hd
            · simp [throw, throwThe, MonadExceptOf.throw] at h

/-- The CPDs return rectangular arrays, that of `v` with `dim v` columns. -/
def Shaped (dim : String → Nat) (cpds : Dict String (CPD β W)) : Prop :=
  ∀ v cpd, cpds.get? v = some cpd → ∀ n pa w a w', cpd n pa w = (.ok a, w') → a.WF ∧ a.nFeatures = dim v

/-- An arm observes variable `v`: on every dataset generated by `S` its transformer returns exactly the samples drawn
for `v`. -/
def Observes {α : Type} (S : SCM String β W) (a : ArmSpec α) (v : String) : Prop :=
  ∀ n w w' smp, S.generate n w = (.ok smp, w') →
    ∃ s ws, SCM.IsRun S n s ws ∧ ws.head? = some w ∧ smp.exp = s S.treatment ∧ smp.rsp = s S.response ∧
      ∀ e r, ∃ f, transform a (ExpData.new (some smp.cov) e r) = .ok f ∧ f.nUnits = smp.cov.len ∧ f.nFeatures = a.coords.length ∧
        ∀ u, u < smp.cov.len → f.cov.bind (·.row? u) = (s v).row? u

theorem row_length (a : Arr β) (h : a.WF) (u : Nat) (r : List β) (hr : a.row? u = some r) : r.length = a.nFeatures := by
  cases a with
  | d1 xs =>
    simp only [Arr.row?] at hr
    rcases hx : xs[u]? with _ | x
    · simp [hx] at hr
    · simp [hx] at hr; subst hr; rfl
  | d2 c rows => exact h r (List.mem_of_getElem? hr)

/-- An arm whose coordinates are the columns of `v` observes `v`. -/
theorem observes_of_columns {α : Type} (S : SCM String β W) (hnd : S.varNames.Nodup) (hcov : ∀ v ∈ S.covVariables, v ∈ S.varNames)
    (ht : S.treatment ∈ S.varNames) (hy : S.response ∈ S.varNames)
    (dim : String → Nat) (hsh : Shaped dim S.cpds) (a : ArmSpec α) (v : String) (hv : v ∈ S.covVariables)
    (ha : a.coords = columnsOf S.covVariables dim v) : Observes S a v := by
  intro n w w' smp hg
  obtain ⟨s, ws, hrun, h1, h2, h3, h4, h5, h6, h7⟩ := SCM.C15_generate_run S hnd hcov ht hy n w w' smp hg
  refine ⟨s, ws, hrun, h1, h3, h4, fun e r => ?_⟩
  obtain ⟨c, rows, hc⟩ := generate_d2 S n w w' smp hg
  have hshape : ∀ u ∈ S.covVariables, (s u).WF ∧ (s u).nFeatures = dim u := by
    intro u hu
    obtain ⟨j, hj⟩ := List.mem_iff_getElem?.mp (hcov u hu)
    obtain ⟨ps, cpd, w1, w2, -, q2, -, -, -, q6⟩ := hrun.draw j u hj
    exact hsh u cpd q2 _ _ _ _ _ q6
  have hsum : c = (S.covVariables.map dim).sum := by
    rw [hc] at h5
    have h5 : c = _ := h5
    rw [h5]
    congr 1
    exact List.map_congr_left fun u hu => (hshape u hu).2
  have hin : ∀ i ∈ a.coords, i < c := by
    rw [ha, hsum]; exact columnsOf_lt _ _ _ hv
  refine ⟨_, by rw [hc]; exact coordMask_nat c rows a.coords e r hin, ?_, rfl, ?_⟩
  · rw [hc]; simp [ExpData.new, Arr.len]
  · intro u hu
    have hrow := h7 u hu
    rw [hc] at hrow hu
    have hrow : rows[u]? = some _ := hrow
    change (rows.map (ExpData.gather a.coords))[u]? = _
    rw [List.getElem?_map, hrow, Option.map_some, ha]
    have hex : ∀ x ∈ S.covVariables, ∃ r, (s x).row? u = some r ∧ r.length = dim x := by
      intro x hx
      have hl : u < (s x).len := by rw [h6 x hx, hc]; exact hu
      have : ∃ r, (s x).row? u = some r := by
        rcases hsx : s x with xs | ⟨k, rws⟩
        · rw [hsx] at hl
          have hl : u < xs.length := hl
          exact ⟨[xs[u]], by simp [Arr.row?, List.getElem?_eq_getElem hl]⟩
        · rw [hsx] at hl
          have hl : u < rws.length := hl
          exact ⟨rws[u], by simp [Arr.row?, List.getElem?_eq_getElem hl]⟩
      obtain ⟨r, hr⟩ := this
      exact ⟨r, hr, by rw [row_length _ (hshape x hx).1 u r hr, (hshape x hx).2]⟩
    rw [gather_columnsOf S.covVariables dim (fun x => ((s x).row? u).getD []) v hv]
    · obtain ⟨r, hr, -⟩ := hex v hv
      simp [hr]
    · intro x hx
      obtain ⟨r, hr, hl⟩ := hex x hx
      simp [hr, hl]

/-! ## C59 -/

/-- **C59 (partial)** The front-door arm observes `Z_0`: for every number of paths, all dimensions and all CPDs that
return arrays of these dimensions, its transformer maps generated data to the samples drawn for `Z_0`.
Missing: the back-door arms, for which the claim is false (`C59_blocks_violated`, `C59_swapped_violated`). -/
theorem C59_frontdoor_partial {α : Type} [Field α] (M : Nat) (cpds : Dict String (CPD β W)) (S : SCM String β W) (hS : scm M cpds = .ok S)
    (zDim vDim : List Nat) (zc vc z0c : α) (latex : Bool) (front : ArmSpec α) (rest : List (ArmSpec α))
    (harms : armList zDim vDim zc vc z0c M latex = .ok (front :: rest))
    (dim : String → Nat) (hdim : dim "Z0" = zDim.getD 0 0) (hsh : Shaped dim cpds) :
    Observes S front "Z0" := by
  have hne : M ≠ 0 := by
    rintro rfl
    cases zDim with
    | nil => simp [armList, zIdx, at', bind, Except.bind] at harms
    | cons d l => rw [C58_no_paths _ _ _ _ _ _ (by simp)] at harms; simp at harms
  have hcoords : front.coords = List.range (zDim.getD 0 0) := by
    unfold armList at harms
    simp only [bind, Except.bind, pure, Except.pure] at harms
    split at harms
    · simp at harms
    · rename_i zs hzs
      split at harms
      · simp at harms
      · split at harms
        · simp at harms
        · rename_i z0 hz0
          split at harms
          · simp at harms
          · rename_i d0 hd0
            split at harms
            · simp at harms
            · have hfr : front = ⟨"frontdoor", .frontDoor, d0, z0, z0c⟩ := by
                simp at harms; exact harms.1.symm
              rw [hfr]
              unfold zIdx at hzs
              rw [hd0] at hzs
              simp only [bind, Except.bind, pure, Except.pure] at hzs
              split at hzs
              · simp at hzs
              · simp at hzs
                rw [← hzs] at hz0
                simp [at'] at hz0
                rw [← hz0]
                unfold at' at hd0
                split at hd0
                · rename_i x hx
                  simp at hd0; subst hd0
                  simp [List.getD_eq_getElem?_getD, hx]
                · simp at hd0
  obtain ⟨hval, hSeq⟩ : SCM.Valid (graph M).varNames (graph M).parents cpds (graph M).covVariables "X" "Y" ∧
      S = ⟨(graph M).varNames, (graph M).parents, cpds, (graph M).covVariables, "X", "Y"⟩ := by
    unfold scm at hS
    rcases SCM.C16_constructor (graph M).varNames (graph M).parents cpds (graph M).covVariables "X" "Y" with ⟨h, hok⟩ | ⟨-, hbad⟩
    · rw [hok] at hS; cases hS; exact ⟨h, rfl⟩
    · rw [hbad] at hS; cases hS
  subst hSeq
  refine observes_of_columns _ (graph_nodup M) hval.cov hval.treatment hval.response dim hsh front "Z0" ?_ ?_
  · dsimp only; rw [(graph_inv M).1]; simp
  · dsimp only
    rw [(graph_inv M).1, hcoords]
    simp [columnsOf, List.takeWhile_cons, hdim, List.range_eq_range']

theorem pathNames_split (M i : Nat) (h1 : 1 ≤ i) (h2 : i ≤ M) :
    ∃ rest, pathNames M = pathNames (i - 1) ++ vName i :: zName i :: rest := by
  induction M with
  | zero => omega
  | succ M ih =>
    rw [pathNames_succ]
    by_cases h : i ≤ M
    · obtain ⟨rest, hr⟩ := ih h
      exact ⟨rest ++ [vName (1 + M), zName (1 + M)], by rw [hr]; simp⟩
    · obtain rfl : i = 1 + M := by omega
      exact ⟨[], by simp⟩

theorem takeWhile_ne_append {γ : Type} [DecidableEq γ] (l r : List γ) (x : γ) (h : x ∉ l) : (l ++ x :: r).takeWhile (· ≠ x) = l := by
  induction l with
  | nil => simp
  | cons a l ih =>
    simp only [List.mem_cons, not_or] at h
    rw [List.cons_append, List.takeWhile_cons, if_pos (by simpa using fun e => h.1 e.symm), ih h.2]

theorem sum_pathNames (zDim vDim : List Nat) (dim : String → Nat) (k : Nat) (h0 : dim "Z0" = zDim.getD 0 0)
    (hz : ∀ j, 1 ≤ j → j ≤ k → dim (zName j) = zDim.getD j 0) (hv : ∀ j, 1 ≤ j → j ≤ k → dim (vName j) = vDim.getD j 0) :
    vDim.getD 0 0 + (dim "Z0" + ((pathNames k).map dim).sum) = (zDim.take (k + 1)).sum + (vDim.take (k + 1)).sum := by
  induction k with
  | zero =>
    rw [sum_take_succ, sum_take_succ]
    simp [pathNames, h0]; omega
  | succ k ih =>
    have := ih (fun j h1 h2 => hz j h1 (by omega)) (fun j h1 h2 => hv j h1 (by omega))
    rw [sum_take_succ zDim (k + 1), sum_take_succ vDim (k + 1), pathNames_succ, List.map_append, List.sum_append]
    have e1 := hz (1 + k) (by omega) (by omega)
    have e2 := hv (1 + k) (by omega) (by omega)
    simp only [List.map_cons, List.map_nil, List.sum_cons, List.sum_nil, e1, e2]
    rw [show 1 + k = k + 1 by omega]
    omega

theorem range'_ne {a b n m : Nat} (h : a ≠ b) (hn : n ≠ 0) : List.range' a n ≠ List.range' b m := by
  intro he
  obtain ⟨n, rfl⟩ : ∃ k, n = k + 1 := ⟨n - 1, by omega⟩
  rw [List.range'_succ] at he
  cases m with
  | zero => simp at he
  | succ m => rw [List.range'_succ] at he; simp at he; exact h he.1

/-- **C59 (violated)** For every number of paths and all positive dimensions, *none* of the index blocks used by the
back-door arms is the set of columns that holds the variable: the masks assume the order `Z_0, Z_1, …, V_1, …` but the
covariates are generated in the order `Z_0, V_1, Z_1, V_2, …`. -/
theorem C59_blocks_violated (M : Nat) (zDim vDim : List Nat) (dim : String → Nat) (h0 : dim "Z0" = zDim.getD 0 0)
    (hdim : ∀ j, 1 ≤ j → j ≤ M → dim ("Z" ++ toString j) = zDim.getD j 0 ∧ dim ("V" ++ toString j) = vDim.getD j 0)
    (i : Nat) (h1 : 1 ≤ i) (h2 : i ≤ M) (hz : zDim.getD i 0 ≠ 0) (hv : vDim.getD i 0 ≠ 0) :
    segment 0 zDim i ≠ columnsOf (graph M).covVariables dim ("Z" ++ toString i) ∧
    segment zDim.sum vDim i ≠ columnsOf (graph M).covVariables dim ("V" ++ toString i) := by
  obtain ⟨rest, hr⟩ := pathNames_split M i h1 h2
  obtain ⟨k, rfl⟩ : ∃ k, i = k + 1 := ⟨i - 1, by omega⟩
  rw [(graph_inv M).1, hr, Nat.add_sub_cancel]
  have hs := sum_pathNames zDim vDim dim k h0 (fun j a b => (hdim j a (by omega)).1) (fun j a b => (hdim j a (by omega)).2)
  have hsub : ∀ s ∈ pathNames k, s ≠ vName (k + 1) ∧ s ≠ zName (k + 1) := by
    intro s hs
    obtain ⟨j, j1, j2, rfl | rfl⟩ := mem_pathNames.mp hs
    · exact ⟨fun e => by have := vName_inj e; omega, vName_ne_zName _ _⟩
    · exact ⟨fun e => vName_ne_zName _ _ e.symm, fun e => by have := zName_inj e; omega⟩
  have e0 : zDim.sum = (zDim.take (k + 1 + 1)).sum + (zDim.drop (k + 1 + 1)).sum := by
    rw [← List.sum_append, List.take_append_drop]
  have e1 := sum_take_succ zDim (k + 1)
  have e2 : (vDim.take (k + 1)).sum ≥ vDim.getD 0 0 := by
    cases vDim with
    | nil => simp
    | cons a l => simp
  constructor
  · unfold segment columnsOf
    rw [show "Z0" :: (pathNames k ++ vName (k + 1) :: zName (k + 1) :: rest) =
      ("Z0" :: (pathNames k ++ [vName (k + 1)])) ++ zName (k + 1) :: rest by simp]
    rw [show "Z" ++ toString (k + 1) = zName (k + 1) from rfl, takeWhile_ne_append]
    · apply range'_ne _ hz
      simp only [List.map_cons, List.map_append, List.sum_cons, List.sum_append, List.map_nil, List.sum_nil]
      rw [show dim (vName (k + 1)) = vDim.getD (k + 1) 0 from (hdim (k + 1) h1 h2).2]
      omega
    · intro hmem
      simp only [List.mem_cons, List.mem_append, List.not_mem_nil, or_false] at hmem
      rcases hmem with h | h | h
      · exact zName_ne_z0 (by omega) h
      · exact (hsub _ h).2 rfl
      · exact vName_ne_zName _ _ h.symm
  · unfold segment columnsOf
    rw [show "Z0" :: (pathNames k ++ vName (k + 1) :: zName (k + 1) :: rest) =
      ("Z0" :: pathNames k) ++ vName (k + 1) :: zName (k + 1) :: rest by simp]
    rw [show "V" ++ toString (k + 1) = vName (k + 1) from rfl, takeWhile_ne_append]
    · apply range'_ne _ hv
      simp only [List.map_cons, List.sum_cons]
      omega
    · intro hmem
      simp only [List.mem_cons] at hmem
      rcases hmem with h | h
      · exact (name_facts (k + 1)).2.2.1 h
      · exact (hsub _ h).1 rfl

theorem scm_inv {M : Nat} {cpds : Dict String (CPD β W)} {S : SCM String β W} (hS : scm M cpds = .ok S) :
    SCM.Valid (graph M).varNames (graph M).parents cpds (graph M).covVariables "X" "Y" ∧
      S = ⟨(graph M).varNames, (graph M).parents, cpds, (graph M).covVariables, "X", "Y"⟩ := by
  unfold scm at hS
  rcases SCM.C16_constructor (graph M).varNames (graph M).parents cpds (graph M).covVariables "X" "Y" with ⟨h, hok⟩ | ⟨-, hbad⟩
  · rw [hok] at hS; cases hS; exact ⟨h, rfl⟩
  · rw [hbad] at hS; cases hS

/-- **C59 (violated)** With one back-door path and one-dimensional variables the two back-door arms are exchanged: on all
generated data the arm named `Z_1` (which is charged the cost of `Z_1`) observes `V_1` and the arm named `V_1` observes
`Z_1`. -/
theorem C59_swapped_violated {α : Type} [Field α] (cpds : Dict String (CPD β W)) (S : SCM String β W) (hS : scm 1 cpds = .ok S)
    (zc vc z0c : α) (hsh : Shaped (fun _ => 1) cpds) :
    ∃ front a b, armList [1, 1] [0, 1] zc vc z0c 1 false = .ok [front, a, b] ∧
      a.name = "Z_1" ∧ a.cost = zc ∧ Observes S a "V1" ∧ b.name = "V_1" ∧ b.cost = vc ∧ Observes S b "Z1" := by
  obtain ⟨hval, rfl⟩ := scm_inv hS
  refine ⟨_, _, _, rfl, rfl, rfl, ?_, rfl, rfl, ?_⟩
  · refine observes_of_columns _ (graph_nodup 1) hval.cov hval.treatment hval.response _ hsh _ "V1" ?_ ?_
    · dsimp only; decide +kernel
    · dsimp only; decide +kernel
  · refine observes_of_columns _ (graph_nodup 1) hval.cov hval.treatment hval.response _ hsh _ "Z1" ?_ ?_
    · dsimp only; decide +kernel
    · dsimp only; decide +kernel

/-- CPDs returning a constant column. -/
def constCpd (c : Int) : CPD Int Unit := fun n _ w => (.ok (.d2 1 (List.replicate n [c])), w)

/-- A CPD dictionary for one path. -/
def demoCpds : Dict String (CPD Int Unit) :=
  [("V1", constCpd 7), ("Z1", constCpd 9), ("X", constCpd 0), ("Z0", constCpd 5), ("Y", constCpd 3)]

theorem constCpd_shape (c : Int) (n pa w a w') (h : constCpd c n pa w = (.ok a, w')) : a.WF ∧ a.nFeatures = 1 ∧ a.len = n := by
  simp only [constCpd, Prod.mk.injEq, Except.ok.injEq] at h
  obtain ⟨rfl, -⟩ := h
  refine ⟨?_, rfl, by simp [Arr.len]⟩
  intro r hr
  rw [List.eq_of_mem_replicate hr]
  rfl

theorem demoCpds_const (v : String) (cpd : CPD Int Unit) (h : demoCpds.get? v = some cpd) : ∃ c, cpd = constCpd c := by
  simp only [demoCpds, Dict.get?] at h
  repeat' (split at h)
  all_goals first | exact ⟨_, (Option.some.inj h).symm⟩ | simp at h

example : Shaped (fun _ => 1) demoCpds ∧ ∃ S, scm 1 demoCpds = .ok S ∧ ∃ smp, S.generate 2 () = (.ok smp, ()) ∧
    smp.cov = .d2 3 [[5, 7, 9], [5, 7, 9]] ∧
    ∃ front a b, armList [1, 1] [0, 1] (1 : ℚ) 2 3 1 false = .ok [front, a, b] ∧
      transform a (ExpData.new (some smp.cov) none none) = .ok (ExpData.new (some (.d2 1 [[7], [7]])) none none) ∧
      transform front (ExpData.new (some smp.cov) none none) = .ok (ExpData.new (some (.d2 1 [[5], [5]])) none none) := by
  refine ⟨?_, ?_⟩
  · intro v cpd h n pa w a w' hc
    obtain ⟨c, rfl⟩ := demoCpds_const v cpd h
    exact ⟨(constCpd_shape c n pa w a w' hc).1, (constCpd_shape c n pa w a w' hc).2.1⟩
  · exact ⟨⟨(graph 1).varNames, (graph 1).parents, demoCpds, (graph 1).covVariables, "X", "Y"⟩, rfl,
      ⟨.d2 3 [[5, 7, 9], [5, 7, 9]], .d2 1 [[0], [0]], .d2 1 [[3], [3]]⟩, rfl, rfl, _, _, _, rfl, rfl, rfl⟩

/-- The hypotheses of `C60_well_formed` are met. -/
example : demoCpds.get? "X" ≠ none ∧ demoCpds.get? "Y" ≠ none ∧ demoCpds.get? "Z0" ≠ none ∧
    (∀ i, 1 ≤ i → i ≤ 1 → demoCpds.get? ("V" ++ toString i) ≠ none ∧ demoCpds.get? ("Z" ++ toString i) ≠ none) ∧
    SCM.TotalCpds (⟨(graph 1).varNames, (graph 1).parents, demoCpds, (graph 1).covVariables, "X", "Y"⟩ : SCM String Int Unit) 3 := by
  refine ⟨by simp [demoCpds, Dict.get?], by simp [demoCpds, Dict.get?], by simp [demoCpds, Dict.get?], ?_, ?_⟩
  · intro i h1 h2
    obtain rfl : i = 1 := by omega
    constructor
    · rw [show "V" ++ toString 1 = "V1" by decide +kernel]; simp [demoCpds, Dict.get?]
    · rw [show "Z" ++ toString 1 = "Z1" by decide +kernel]; simp [demoCpds, Dict.get?]
  · intro v cpd h pa w
    obtain ⟨c, rfl⟩ := demoCpds_const v cpd h
    exact ⟨_, _, rfl, (constCpd_shape c 3 pa w _ _ rfl).2.2, (constCpd_shape c 3 pa w _ _ rfl).1⟩

end Paper
end Verif
