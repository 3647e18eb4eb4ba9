import Verif.Model.Tabular
import Mathlib.Algebra.BigOperators.Group.List.Basic
import Mathlib.Algebra.Order.BigOperators.Group.List
import Mathlib.Algebra.BigOperators.Ring.List
import Mathlib.Tactic.Linarith
import Mathlib.Tactic.Ring
import Mathlib.Tactic.FieldSimp
import Mathlib.Data.List.Count
import Mathlib.Data.List.Perm.Basic
import Mathlib.Data.List.Dedup

set_option linter.unusedSectionVars false

namespace Verif

namespace Dict
variable {K V : Type} [DecidableEq K]

theorem get?_set (d : Dict K V) (k k' : K) (v : V) :
    (d.set k v).get? k' = if k = k' then some v else d.get? k' := by
  induction d with
  | nil => simp [set, get?]
  | cons p d ih =>
    obtain ⟨a, b⟩ := p
    by_cases h : a = k
    · subst h
      by_cases h' : a = k' <;> simp [set, get?, h']
    · simp only [set, h, if_false, get?, ih]
      by_cases h' : a = k'
      · subst h'
        have : ¬ k = a := fun e => h e.symm
        simp [this]
      · simp [h']

theorem getD_set (d : Dict K V) (k k' : K) (v dv : V) :
    (d.set k v).getD k' dv = if k = k' then v else d.getD k' dv := by
  unfold getD
  rw [get?_set]
  split <;> simp

theorem getD_touch (d : Dict K V) (k k' : K) (dv : V) :
    (d.touch k dv).getD k' dv = d.getD k' dv := by
  unfold touch
  split
  · rfl
  · rename_i h
    rw [getD_set]
    split
    · rename_i h'; subst h'; simp [getD, h]
    · rfl

theorem sum_set {α : Type} [Field α] (d : Dict K α) (k : K) (v : α) :
    ((d.set k v).map Prod.snd).sum = (d.map Prod.snd).sum - d.getD k 0 + v := by
  induction d with
  | nil => simp [set, getD, get?]
  | cons p d ih =>
    obtain ⟨a, b⟩ := p
    by_cases h : a = k
    · subst h
      simp [set, getD, get?]; ring
    · simp only [set, h, if_false, List.map_cons, List.sum_cons, ih, getD, get?]
      ring

end Dict

theorem mem_addKey {K : Type} [DecidableEq K] (l : List K) (k x : K) : x ∈ addKey l k ↔ x ∈ l ∨ x = k := by
  unfold addKey
  split
  · rename_i h
    constructor
    · exact Or.inl
    · rintro (h' | rfl) <;> assumption
  · simp

theorem nodup_addKey {K : Type} [DecidableEq K] (l : List K) (k : K) (h : l.Nodup) : (addKey l k).Nodup := by
  unfold addKey
  split
  · exact h
  · rename_i h'
    rw [List.nodup_append]
    refine ⟨h, by simp, ?_⟩
    intro a ha b hb
    simp at hb
    subst hb
    intro e; subst e; exact h' ha

namespace Tab
variable {KX KZ α : Type} [DecidableEq KX] [DecidableEq KZ] [Field α] [LinearOrder α]

/-- the value stored for `(x, z)` (default 0) -/
def cell (t : Tab KX KZ α) (x : KX) (z : KZ) : α := (t.table.getD x []).getD z 0

/-- sum of the values stored in the row of `x` -/
def rowSum (t : Tab KX KZ α) (x : KX) : α := ((t.table.getD x []).map Prod.snd).sum

/-! ### counting -/

theorem cell_countStep (t : Tab KX KZ α) (p q : KX × KZ) :
    (t.countStep p).cell q.1 q.2 = t.cell q.1 q.2 + if p = q then 1 else 0 := by
  obtain ⟨x, z⟩ := p
  obtain ⟨x', z'⟩ := q
  simp only [cell, countStep, Dict.getD_set]
  by_cases hx : x = x'
  · subst hx
    simp only [if_true, Dict.getD_set]
    by_cases hz : z = z'
    · subst hz; simp
    · simp [hz]
  · simp [hx]

theorem rowSum_countStep (t : Tab KX KZ α) (p : KX × KZ) (x : KX) :
    (t.countStep p).rowSum x = t.rowSum x + if p.1 = x then 1 else 0 := by
  obtain ⟨x', z'⟩ := p
  simp only [rowSum, countStep, Dict.getD_set]
  by_cases hx : x' = x
  · subst hx
    simp only [if_true, Dict.sum_set]
    ring
  · simp [hx]

/-- everything the counting loop does -/
theorem count_fold (l : List (KX × KZ)) (t : Tab KX KZ α) :
    (∀ x z, (l.foldl countStep t).cell x z = t.cell x z + (l.count (x, z) : α)) ∧
    (∀ x, (l.foldl countStep t).rowSum x = t.rowSum x + ((l.map Prod.fst).count x : α)) ∧
    (∀ x, x ∈ (l.foldl countStep t).xValues ↔ x ∈ t.xValues ∨ x ∈ l.map Prod.fst) ∧
    (∀ z, z ∈ (l.foldl countStep t).zValues ↔ z ∈ t.zValues ∨ z ∈ l.map Prod.snd) ∧
    (t.xValues.Nodup → (l.foldl countStep t).xValues.Nodup) ∧
    (t.zValues.Nodup → (l.foldl countStep t).zValues.Nodup) ∧
    (l.foldl countStep t).nUnits = t.nUnits ∧ (l.foldl countStep t).ratio = t.ratio ∧
    (l.foldl countStep t).xMarginal = t.xMarginal := by
  induction l generalizing t with
  | nil => simp
  | cons p l ih =>
    obtain ⟨h1, h2, h3, h4, h5, h6, h7, h8, h9⟩ := ih (t.countStep p)
    refine ⟨?_, ?_, ?_, ?_, ?_, ?_, h7, h8, h9⟩
    · intro x z
      rw [List.foldl_cons, h1, cell_countStep t p (x, z), List.count_cons]
      push_cast
      simp only [beq_iff_eq]
      split <;> ring
    · intro x
      rw [List.foldl_cons, h2, rowSum_countStep, List.map_cons, List.count_cons]
      push_cast
      simp only [beq_iff_eq]
      split <;> ring
    · intro x
      rw [List.foldl_cons, h3]
      simp only [countStep, mem_addKey, List.map_cons, List.mem_cons]
      tauto
    · intro z
      rw [List.foldl_cons, h4]
      simp only [countStep, mem_addKey, List.map_cons, List.mem_cons]
      tauto
    · intro h
      exact h5 (nodup_addKey _ _ h)
    · intro h
      exact h6 (nodup_addKey _ _ h)

/-! ### closed form of a normalised row -/

/-- amount by which `p` violates the bounds -/
def viol (mp p : α) : α := if p < mp then mp - p else if p > 1 - mp then p - (1 - mp) else 0

/-- clip to the bounds -/
def clip (mp p : α) : α := if p < mp then mp else if p > 1 - mp then 1 - mp else p

/-- inside the bounds -/
def okB (mp p : α) : Bool := !(decide (p < mp) || decide (p > 1 - mp))

/-- closed form of the normalised row -/
def adj (mp : α) (zs : List KZ) (p : KZ → α) (z : KZ) : α :=
  if okB mp (p z) then p z - (zs.map fun z => viol mp (p z)).sum / ((zs.filter fun z => okB mp (p z)).length : α)
  else clip mp (p z)

theorem rowLoop_ok (mp N : α) (hN : N ≠ 0) (zs : List KZ) (hzs : zs.Nodup) (row : Dict KZ α) (nv : List KZ) (V : α) :
    ∃ row', rowLoop mp N zs (row, nv, V) =
      (.ok (), row', nv ++ zs.filter (fun z => okB mp (row.getD z 0 / N)),
        V + (zs.map fun z => viol mp (row.getD z 0 / N)).sum) ∧
      ∀ z, row'.getD z 0 = if z ∈ zs then clip mp (row.getD z 0 / N) else row.getD z 0 := by
  induction zs generalizing row nv V with
  | nil => exact ⟨row, by simp [rowLoop], by simp⟩
  | cons z zs ih =>
    have hz : z ∉ zs := (List.nodup_cons.mp hzs).1
    have hzs' := (List.nodup_cons.mp hzs).2
    have key : ∀ (v : α) (nv' : List KZ) (V' : α), ∃ row', rowLoop mp N zs (row.set z v, nv', V') =
        (.ok (), row', nv' ++ zs.filter (fun z => okB mp (row.getD z 0 / N)),
          V' + (zs.map fun z => viol mp (row.getD z 0 / N)).sum) ∧
        ∀ y, row'.getD y 0 = if y ∈ zs then clip mp (row.getD y 0 / N) else if z = y then v else row.getD y 0 := by
      intro v nv' V'
      obtain ⟨row', h1, h2⟩ := ih hzs' (row.set z v) nv' V'
      have hne : ∀ y ∈ zs, (row.set z v).getD y 0 = row.getD y 0 := by
        intro y hy
        rw [Dict.getD_set, if_neg]
        rintro rfl; exact hz hy
      refine ⟨row', ?_, ?_⟩
      · rw [h1]
        congr 3
        · congr 1
          apply List.filter_congr
          intro y hy; rw [hne y hy]
        · congr 2
          apply List.map_congr_left
          intro y hy; rw [hne y hy]
      · intro y
        rw [h2 y]
        by_cases hy : y ∈ zs
        · simp only [hy, if_true]; rw [hne y hy]
        · simp only [hy, if_false, Dict.getD_set]
    unfold rowLoop
    simp only [hN, if_false]
    by_cases h1 : row.getD z 0 / N < mp
    · simp only [h1, if_true]
      obtain ⟨row', e1, e2⟩ := key mp nv (V + (mp - row.getD z 0 / N))
      refine ⟨row', ?_, ?_⟩
      · rw [e1]
        have : okB mp (row.getD z 0 / N) = false := by simp [okB, h1]
        simp [this, viol, h1, add_assoc]
      · intro y
        rw [e2 y]
        by_cases hy : y ∈ zs
        · simp [hy]
        · by_cases hzy : z = y
          · subst hzy; simp [hz, clip, h1]
          · have : ¬ y = z := fun e => hzy e.symm
            simp [hy, hzy, this]
    · simp only [h1, if_false]
      by_cases h2 : row.getD z 0 / N > 1 - mp
      · simp only [h2, if_true]
        obtain ⟨row', e1, e2⟩ := key (1 - mp) nv (V + (row.getD z 0 / N - (1 - mp)))
        refine ⟨row', ?_, ?_⟩
        · rw [e1]
          have : okB mp (row.getD z 0 / N) = false := by simp only [okB, h2, decide_true, Bool.or_true, Bool.not_true]
          simp only [List.filter_cons, this, viol, h1, h2, add_assoc, List.map_cons, List.sum_cons, if_true, if_false, Bool.false_eq_true]
        · intro y
          rw [e2 y]
          by_cases hy : y ∈ zs
          · simp [hy]
          · by_cases hzy : z = y
            · subst hzy; simp only [hz, if_false, if_true, List.mem_cons, true_or, clip, h1, h2]
            · have : ¬ y = z := fun e => hzy e.symm
              simp [hy, hzy, this]
      · simp only [h2, if_false]
        obtain ⟨row', e1, e2⟩ := key (row.getD z 0 / N) (nv ++ [z]) V
        refine ⟨row', ?_, ?_⟩
        · rw [e1]
          have : okB mp (row.getD z 0 / N) = true := by simp only [okB, h1, h2, decide_false, Bool.or_self, Bool.not_false]
          simp only [List.filter_cons, this, viol, h1, h2, List.map_cons, List.sum_cons, if_true, if_false, zero_add, List.append_assoc,
            List.singleton_append]
        · intro y
          rw [e2 y]
          by_cases hy : y ∈ zs
          · simp [hy]
          · by_cases hzy : z = y
            · subst hzy; simp only [hz, if_false, if_true, List.mem_cons, true_or, clip, h1, h2]
            · have : ¬ y = z := fun e => hzy e.symm
              simp [hy, hzy, this]

theorem spread_aux (c : α) (nv : List KZ) (hnv : nv.Nodup) (row : Dict KZ α) (z : KZ) :
    (nv.foldl (fun row z => row.set z (row.getD z 0 - c)) row).getD z 0 =
      if z ∈ nv then row.getD z 0 - c else row.getD z 0 := by
  induction nv generalizing row with
  | nil => simp
  | cons y nv ih =>
    have hy := (List.nodup_cons.mp hnv).1
    rw [List.foldl_cons, ih (List.nodup_cons.mp hnv).2, Dict.getD_set]
    by_cases h : z ∈ nv
    · have : ¬ y = z := by rintro rfl; exact hy h
      simp [h, this]
    · by_cases h' : y = z
      · subst h'; simp [h]
      · have : ¬ z = y := fun e => h' e.symm
        simp [h, h', this]

theorem spread_getD (nv : List KZ) (hnv : nv.Nodup) (V : α) (row : Dict KZ α) (z : KZ) :
    (spread nv V row).getD z 0 = if z ∈ nv then row.getD z 0 - V / (nv.length : α) else row.getD z 0 :=
  spread_aux _ nv hnv row z

/-- the normalised row in closed form -/
theorem row_closed (mp N : α) (hN : N ≠ 0) (zs : List KZ) (hzs : zs.Nodup) (row : Dict KZ α) :
    ∃ row' nv V, rowLoop mp N zs (row, [], 0) = (.ok (), row', nv, V) ∧
      ∀ z, (spread nv V row').getD z 0 = if z ∈ zs then adj mp zs (fun z => row.getD z 0 / N) z else row.getD z 0 := by
  obtain ⟨row', h1, h2⟩ := rowLoop_ok mp N hN zs hzs row [] 0
  refine ⟨row', _, _, h1, ?_⟩
  intro z
  rw [spread_getD _ (by simpa using hzs.filter _), h2]
  simp only [List.nil_append, zero_add, List.mem_filter, adj]
  by_cases hz : z ∈ zs
  · simp only [hz, true_and, if_true]
    split
    · rename_i h
      congr 1
      simp only [okB, Bool.not_eq_true', Bool.or_eq_false_iff, decide_eq_false_iff_not] at h
      simp only [clip, h.1, h.2, if_false]
    · rfl
  · simp [hz]

theorem rowLoop_zero (mp : α) (zs : List KZ) (hzs : zs ≠ []) (s : Dict KZ α × List KZ × α) :
    (rowLoop mp 0 zs s).1 = .error .zeroDivisionError := by
  cases zs with
  | nil => exact absurd rfl hzs
  | cons z zs => simp [rowLoop]

theorem normLoop_ok (mp : α) (xs : List KX) (hxs : xs.Nodup) (t : Tab KX KZ α) (hz : t.zValues.Nodup)
    (hn : t.nUnits ≠ 0) (hN : ∀ x ∈ xs, t.rowSum x ≠ 0) :
    ∃ t', normLoop mp xs t = (.ok (), t') ∧ t'.nUnits = t.nUnits ∧ t'.ratio = t.ratio ∧
      t'.minProb = t.minProb ∧ t'.xValues = t.xValues ∧ t'.zValues = t.zValues ∧
      (∀ x z, t'.cell x z = if x ∈ xs ∧ z ∈ t.zValues then adj mp t.zValues (fun z => t.cell x z / t.rowSum x) z
        else t.cell x z) ∧
      (∀ x, t'.xMarginal.get? x = if x ∈ xs then some (t.rowSum x / (t.nUnits : α)) else t.xMarginal.get? x) := by
  induction xs generalizing t with
  | nil => exact ⟨t, rfl, rfl, rfl, rfl, rfl, rfl, by simp, by simp⟩
  | cons x xs ih =>
    have hx := (List.nodup_cons.mp hxs).1
    obtain ⟨row', nv, V, h1, h2⟩ := row_closed mp (t.rowSum x) (hN x (by simp)) t.zValues hz (t.table.getD x [])
    let t2 : Tab KX KZ α := { t with
      table := (t.table.touch x []).set x (spread nv V row')
      xMarginal := t.xMarginal.set x (t.rowSum x / (t.nUnits : α)) }
    have hstep : normLoop mp (x :: xs) t = normLoop mp xs t2 := by
      have hfs : ((t.table.getD x []).map Prod.snd).foldl (· + ·) 0 = t.rowSum x := by
        rw [rowSum, List.sum_eq_foldl]
      rw [normLoop]
      simp only [hn, if_false, hfs, h1]
      rfl
    have hrow : ∀ y, y ≠ x → t2.table.getD y [] = t.table.getD y [] := by
      intro y hy
      simp only [t2, Dict.getD_set, Dict.getD_touch]
      rw [if_neg (fun e => hy e.symm)]
    have hrowx : t2.table.getD x [] = spread nv V row' := by
      simp only [t2, Dict.getD_set]; simp
    have hrs : ∀ y, y ≠ x → t2.rowSum y = t.rowSum y := by
      intro y hy; simp only [rowSum, hrow y hy]
    have hcl : ∀ y, y ≠ x → ∀ z, t2.cell y z = t.cell y z := by
      intro y hy z; simp only [cell, hrow y hy]
    have hclx : ∀ z, t2.cell x z = if z ∈ t.zValues then adj mp t.zValues (fun z => t.cell x z / t.rowSum x) z
        else t.cell x z := by
      intro z; simp only [cell, hrowx]; exact h2 z
    obtain ⟨t', g1, g2, g3, g4, g5, g6, g7, g8⟩ := ih (List.nodup_cons.mp hxs).2 t2 hz hn (by
      intro y hy
      have : y ≠ x := by rintro rfl; exact hx hy
      rw [hrs y this]; exact hN y (by simp [hy]))
    refine ⟨t', by rw [hstep, g1], g2, g3, g4, g5, g6, ?_, ?_⟩
    · intro y z
      rw [g7 y z]
      by_cases hy : y = x
      · subst hy
        simp only [hx, false_and, if_false, hclx, List.mem_cons, true_or, true_and]
      · rw [hcl y hy]
        simp only [hrs y hy, List.mem_cons, hy, false_or]
        have : (fun z => t2.cell y z / t.rowSum y) = (fun z => t.cell y z / t.rowSum y) := by
          funext z; rw [hcl y hy]
        rw [this]
    · intro y
      rw [g8 y]
      by_cases hy : y = x
      · subst hy
        simp [hx, t2, Dict.get?_set]
      · have hy' : ¬ x = y := fun e => hy e.symm
        rw [hrs y hy]
        simp [hy, t2, Dict.get?_set, hy']

theorem normLoop_fail (mp : α) (xs : List KX) (hxs : xs.Nodup) (t : Tab KX KZ α) (hz : t.zValues.Nodup)
    (hz0 : t.zValues ≠ []) (h : t.nUnits = 0 ∧ xs ≠ [] ∨ ∃ x ∈ xs, t.rowSum x = 0) :
    (normLoop mp xs t).1 = .error .zeroDivisionError := by
  induction xs generalizing t with
  | nil => simp at h
  | cons x xs ih =>
    have hx := (List.nodup_cons.mp hxs).1
    have hfs : ((t.table.getD x []).map Prod.snd).foldl (· + ·) 0 = t.rowSum x := by
      rw [rowSum, List.sum_eq_foldl]
    by_cases hn : t.nUnits = 0
    · simp [normLoop, hn]
    · rw [normLoop]
      simp only [hn, if_false, hfs]
      by_cases hN : t.rowSum x = 0
      · have h0 := rowLoop_zero mp t.zValues hz0 (t.table.getD x [], [], 0)
        rw [hN]
        rcases hr : rowLoop mp 0 t.zValues (t.table.getD x [], [], 0) with ⟨r, row', nv, V⟩
        rw [hr] at h0
        simp only at h0
        subst h0
        rfl
      · obtain ⟨row', nv, V, h1, h2⟩ := row_closed mp (t.rowSum x) hN t.zValues hz (t.table.getD x [])
        rw [h1]
        simp only
        refine ih (List.nodup_cons.mp hxs).2 _ ?_ ?_ ?_
        · exact hz
        · exact hz0
        right
        rcases h with ⟨h, _⟩ | ⟨y, hy, h⟩
        · exact absurd h hn
        · have hyx : y ≠ x := by rintro rfl; exact hN h
          refine ⟨y, by simpa [hyx] using hy, ?_⟩
          simp only [rowSum, Dict.getD_set, Dict.getD_touch]
          rw [if_neg (fun e => hyx e.symm)]
          exact h

/-! ### fit -/

/-- the value of `min_prob` computed for a support of size `m` -/
def mpOf (ratio : α) (m : Nat) : α := if 1 / (m : α) / ratio > 1 then 1 / 5 else 1 / (m : α) / ratio

/-- merged key list after counting -/
def mergeKeys {K : Type} [DecidableEq K] (old : List K) (new : List K) : List K := new.foldl addKey old

theorem mem_mergeKeys {K : Type} [DecidableEq K] (old new : List K) (x : K) :
    x ∈ mergeKeys old new ↔ x ∈ old ∨ x ∈ new := by
  induction new generalizing old with
  | nil => simp [mergeKeys]
  | cons k new ih =>
    have := ih (addKey old k)
    unfold mergeKeys at this ⊢
    rw [List.foldl_cons, this, mem_addKey]
    simp; tauto

theorem nodup_mergeKeys {K : Type} [DecidableEq K] (old new : List K) (h : old.Nodup) : (mergeKeys old new).Nodup := by
  induction new generalizing old with
  | nil => exact h
  | cons k new ih => exact ih _ (nodup_addKey _ _ h)

theorem count_fold_keys (l : List (KX × KZ)) (t : Tab KX KZ α) :
    (l.foldl countStep t).xValues = mergeKeys t.xValues (l.map Prod.fst) ∧
    (l.foldl countStep t).zValues = mergeKeys t.zValues (l.map Prod.snd) := by
  induction l generalizing t with
  | nil => exact ⟨rfl, rfl⟩
  | cons p l ih =>
    obtain ⟨h1, h2⟩ := ih (t.countStep p)
    refine ⟨?_, ?_⟩
    · rw [List.foldl_cons, h1]; rfl
    · rw [List.foldl_cons, h2]; rfl

/-- What `fit` computes, and when it fails. -/
theorem fit_spec (t : Tab KX KZ α) (hx : t.xValues.Nodup) (hz : t.zValues.Nodup)
    [IsStrictOrderedRing α] (data : List (KX × KZ)) (hr : t.ratio ≠ 0)
    (hne : data ≠ []) (hold : ∀ x ∈ t.xValues, x ∈ data.map Prod.fst) :
    ∃ t', t.fit (data.map Prod.fst) (data.map Prod.snd) = (.ok (), t') ∧
      t'.nUnits = data.length ∧ t'.ratio = t.ratio ∧
      t'.zValues = mergeKeys t.zValues (data.map Prod.snd) ∧
      t'.xValues = mergeKeys t.xValues (data.map Prod.fst) ∧
      t'.minProb = some (mpOf t.ratio t'.zValues.length) ∧
      (∀ x z, t'.cell x z = if x ∈ data.map Prod.fst ∧ z ∈ t'.zValues then
        adj (mpOf t.ratio t'.zValues.length) t'.zValues
          (fun z => (data.count (x, z) : α) / ((data.map Prod.fst).count x : α)) z else 0) ∧
      (∀ x, t'.xMarginal.get? x = if x ∈ data.map Prod.fst then
        some (((data.map Prod.fst).count x : α) / (data.length : α)) else none) := by
  let t1 : Tab KX KZ α := { t with nUnits := (data.map Prod.fst).length, table := [], xMarginal := [] }
  obtain ⟨c1, c2, c3, c4, c5, c6, c7, c8, c9⟩ := count_fold data t1
  obtain ⟨k1, k2⟩ := count_fold_keys data t1
  have hzip : (data.map Prod.fst).zip (data.map Prod.snd) = data := by
    clear * -
    induction data with
    | nil => rfl
    | cons p data ih => simp [ih]
  generalize ht2 : data.foldl countStep t1 = t2 at *
  have hlen : 0 < data.length := List.length_pos_iff.mpr hne
  have hznil : t2.zValues ≠ [] := by
    obtain ⟨p, data', rfl⟩ := List.exists_cons_of_ne_nil hne
    intro h
    have := (c4 p.2).mpr (Or.inr (by simp))
    rw [h] at this; simp at this
  have hxmem : ∀ x, x ∈ t2.xValues ↔ x ∈ data.map Prod.fst := by
    intro x; rw [c3]; constructor
    · rintro (h | h)
      · exact hold x h
      · exact h
    · exact Or.inr
  have hcell : ∀ x z, t2.cell x z = (data.count (x, z) : α) := by
    intro x z; rw [c1]; simp [t1, cell, Dict.getD, Dict.get?]
  have hrowS : ∀ x, t2.rowSum x = ((data.map Prod.fst).count x : α) := by
    intro x; rw [c2]; simp [t1, rowSum, Dict.getD, Dict.get?]
  have hmpne : mpOf t.ratio t2.zValues.length = if 1 / (t2.zValues.length : α) / t2.ratio > 1 then 1 / 5 else 1 / (t2.zValues.length : α) / t2.ratio := by
    rw [c8]; rfl
  obtain ⟨t', g1, g2, g3, g4, g5, g6, g7, g8⟩ := normLoop_ok (mpOf t.ratio t2.zValues.length) t2.xValues (c5 hx)
    { t2 with minProb := some (mpOf t.ratio t2.zValues.length) } (c6 hz) (by
      show t2.nUnits ≠ 0
      rw [c7]; simp [t1]; exact hne) (by
      intro x hx'
      show t2.rowSum x ≠ 0
      rw [hrowS]
      have : 0 < (data.map Prod.fst).count x := List.count_pos_iff.mpr ((hxmem x).mp hx')
      exact_mod_cast this.ne')
  refine ⟨t', ?_, ?_, ?_, ?_, ?_, ?_, ?_, ?_⟩
  · unfold fit
    rw [if_neg (by simp)]
    simp only [hzip]
    show (if (data.foldl countStep t1).zValues.length = 0 then _ else _) = _
    simp only [show (data.foldl countStep { t with nUnits := (data.map Prod.fst).length, table := [], xMarginal := [] }) = t2 from ht2]
    rw [show data.foldl countStep t1 = t2 from ht2]
    rw [if_neg (by simpa using hznil), if_neg (by rw [c8]; exact hr)]
    rw [← hmpne]
    exact g1
  · rw [g2]; show t2.nUnits = _; rw [c7]; simp [t1]
  · rw [g3]; exact c8
  · rw [g6]; exact k2
  · rw [g5]; exact k1
  · rw [g4, g6]
  · intro x z
    rw [g7 x z]
    show (if x ∈ t2.xValues ∧ z ∈ t2.zValues then adj _ t2.zValues (fun z => t2.cell x z / t2.rowSum x) z else t2.cell x z) = _
    rw [g6]
    simp only [hxmem, hcell, hrowS]
    split
    · rfl
    · rename_i hnot
      have h0 : data.count (x, z) = 0 := by
        apply List.count_eq_zero.mpr
        intro hmem
        apply hnot
        refine ⟨List.mem_map.mpr ⟨_, hmem, rfl⟩, (c4 z).mpr (Or.inr (List.mem_map.mpr ⟨_, hmem, rfl⟩))⟩
      simp [h0]
  · intro x
    rw [g8 x]
    show (if x ∈ t2.xValues then some (t2.rowSum x / (t2.nUnits : α)) else t2.xMarginal.get? x) = _
    simp only [hxmem, hrowS, c7, c9]
    simp [t1, Dict.get?]

theorem fit_stale_x_fails [IsStrictOrderedRing α] (t : Tab KX KZ α) (hx : t.xValues.Nodup) (hz : t.zValues.Nodup)
    (data : List (KX × KZ)) (hr : t.ratio ≠ 0) (x : KX) (hxo : x ∈ t.xValues) (hxn : x ∉ data.map Prod.fst)
    (hzo : t.zValues ≠ []) :
    (t.fit (data.map Prod.fst) (data.map Prod.snd)).1 = .error .zeroDivisionError := by
  let t1 : Tab KX KZ α := { t with nUnits := (data.map Prod.fst).length, table := [], xMarginal := [] }
  obtain ⟨c1, c2, c3, c4, c5, c6, c7, c8, c9⟩ := count_fold data t1
  have hzip : (data.map Prod.fst).zip (data.map Prod.snd) = data := by
    clear * -
    induction data with
    | nil => rfl
    | cons p data ih => simp [ih]
  have hznil : (data.foldl countStep t1).zValues ≠ [] := by
    obtain ⟨z, zs, hzz⟩ := List.exists_cons_of_ne_nil hzo
    intro h
    have := (c4 z).mpr (Or.inl (by show z ∈ t.zValues; rw [hzz]; simp))
    rw [h] at this; simp at this
  unfold fit
  rw [if_neg (by simp)]
  simp only [hzip]
  show (if (data.foldl countStep t1).zValues.length = 0 then _ else if (data.foldl countStep t1).ratio = 0 then _ else _ : Except PyErr Unit × Tab KX KZ α).1 = _
  rw [if_neg (by simpa using hznil), if_neg (by rw [c8]; exact hr)]
  refine normLoop_fail _ _ (c5 hx) _ ?_ ?_ ?_
  · exact c6 hz
  · exact hznil
  right
  refine ⟨x, (c3 x).mpr (Or.inl hxo), ?_⟩
  show (data.foldl countStep t1).rowSum x = 0
  rw [c2]
  simp [t1, rowSum, Dict.getD, Dict.get?]
  exact List.count_eq_zero.mpr hxn

theorem predict_eq (l : List (KX × KZ)) (t : Tab KX KZ α) :
    (t.predict l).1 = l.map (fun q => t.cell q.1 q.2) ∧ ∀ x z, (t.predict l).2.cell x z = t.cell x z := by
  induction l generalizing t with
  | nil => exact ⟨rfl, fun _ _ => rfl⟩
  | cons p l ih =>
    obtain ⟨x, z⟩ := p
    have hc : ∀ x' z', ({ t with table := t.table.set x ((t.table.getD x []).touch z 0) } : Tab KX KZ α).cell x' z' = t.cell x' z' := by
      intro x' z'
      simp only [cell, Dict.getD_set]
      split
      · rename_i h; subst h; rw [Dict.getD_touch]
      · rfl
    obtain ⟨h1, h2⟩ := ih { t with table := t.table.set x ((t.table.getD x []).touch z 0) }
    refine ⟨?_, ?_⟩
    · show _ :: (predict _ l).1 = _
      rw [h1]
      simp only [List.map_cons]
      congr 1
      apply List.map_congr_left
      intro q _
      exact hc _ _
    · intro x' z'
      show (predict _ l).2.cell x' z' = _
      rw [h2, hc]

/-! ### sums of rows -/

theorem sum_ite_sub (c : KZ → Bool) (g : KZ → α) (k : α) (zs : List KZ) :
    (zs.map fun z => if c z then g z - k else g z).sum = (zs.map g).sum - ((zs.filter c).length : α) * k := by
  induction zs with
  | nil => simp
  | cons z zs ih =>
    simp only [List.map_cons, List.sum_cons, ih, List.filter_cons]
    split
    · simp; ring
    · ring

theorem sum_adj (mp : α) (zs : List KZ) (p : KZ → α) :
    (zs.map (adj mp zs p)).sum = (zs.map fun z => clip mp (p z)).sum -
      ((zs.filter fun z => okB mp (p z)).length : α) *
        ((zs.map fun z => viol mp (p z)).sum / ((zs.filter fun z => okB mp (p z)).length : α)) := by
  rw [← sum_ite_sub]
  congr 1
  apply List.map_congr_left
  intro z _
  simp only [adj]
  split
  · rename_i h
    have : clip mp (p z) = p z := by
      simp only [okB, Bool.not_eq_true', Bool.or_eq_false_iff, decide_eq_false_iff_not] at h
      simp only [clip, h.1, h.2, if_false]
    rw [this]
  · rfl

variable [IsStrictOrderedRing α]

theorem sum_adj_no_high (mp : α) (zs : List KZ) (p : KZ → α) (hsum : (zs.map p).sum = 1)
    (hm : mp * (zs.length : α) ≤ 1) (hhigh : ∀ z ∈ zs, p z ≤ 1 - mp) :
    (zs.map (adj mp zs p)).sum = 1 ∧ ∃ z ∈ zs, okB mp (p z) = true := by
  have hne : ∃ z ∈ zs, okB mp (p z) = true := by
    by_contra hcon
    push Not at hcon
    have hlow : ∀ z ∈ zs, p z < mp := by
      intro z hz
      have h1 := hcon z hz
      simp only [okB, Bool.not_eq_true, Bool.not_eq_false', Bool.or_eq_true, decide_eq_true_eq] at h1
      rcases h1 with h1 | h1
      · exact h1
      · exact absurd (hhigh z hz) (not_le.mpr h1)
    have : (zs.map p).sum < (zs.map fun _ => mp).sum := by
      have hnil : zs ≠ [] := by rintro rfl; simp at hsum
      exact List.sum_lt_sum_of_ne_nil hnil _ _ hlow
    rw [hsum] at this
    simp only [List.map_const', List.sum_replicate, nsmul_eq_mul] at this
    rw [mul_comm] at this
    exact absurd hm (not_le.mpr this)
  refine ⟨?_, hne⟩
  rw [sum_adj]
  have hlen : ((zs.filter fun z => okB mp (p z)).length : α) ≠ 0 := by
    obtain ⟨z, hz, h⟩ := hne
    have : 0 < (zs.filter fun z => okB mp (p z)).length :=
      List.length_pos_iff.mpr (List.ne_nil_of_mem (List.mem_filter.mpr ⟨hz, h⟩))
    exact_mod_cast this.ne'
  rw [mul_div_cancel₀ _ hlen]
  have : (zs.map fun z => clip mp (p z)) = zs.map fun z => p z + viol mp (p z) := by
    apply List.map_congr_left
    intro z hz
    have := hhigh z hz
    simp only [clip, viol]
    by_cases h1 : p z < mp
    · simp [h1]
    · simp [h1, not_lt.mpr this]
  rw [this, List.sum_map_add, hsum]
  ring

theorem others_low (mp : α) (zs : List KZ) (p : KZ → α) (hp : ∀ z ∈ zs, 0 ≤ p z)
    (hsum : (zs.map p).sum = 1) (z0 : KZ) (hz0 : z0 ∈ zs) (hh : 1 - mp < p z0) :
    ∀ z ∈ zs, z ≠ z0 → p z < mp := by
  intro z hz hne
  have hperm := List.perm_cons_erase hz0
  have h1 : p z0 + ((zs.erase z0).map p).sum = 1 := by
    rw [← hsum, (hperm.map p).sum_eq, List.map_cons, List.sum_cons]
  have h2 : p z ≤ ((zs.erase z0).map p).sum := by
    apply List.single_le_sum
    · intro y hy
      obtain ⟨w, hw, rfl⟩ := List.mem_map.mp hy
      exact hp w (List.mem_of_mem_erase hw)
    · exact List.mem_map.mpr ⟨z, (List.mem_erase_of_ne hne).mpr hz, rfl⟩
  linarith

theorem sum_adj_high (mp : α) (zs : List KZ) (hzs : zs.Nodup) (p : KZ → α) (hp : ∀ z ∈ zs, 0 ≤ p z)
    (hsum : (zs.map p).sum = 1) (z0 : KZ) (hz0 : z0 ∈ zs) (hh : 1 - mp < p z0) (hge : mp ≤ p z0) :
    (zs.map (adj mp zs p)).sum = 1 + ((zs.length : α) - 2) * mp := by
  have hlow := others_low mp zs p hp hsum z0 hz0 hh
  have hnv : (zs.filter fun z => okB mp (p z)) = [] := by
    rw [List.filter_eq_nil_iff]
    intro z hz
    by_cases h : z = z0
    · subst h; simp [okB, hh]
    · simp [okB, hlow z hz h]
  rw [sum_adj, hnv]
  simp only [List.length_nil, Nat.cast_zero, zero_mul, sub_zero]
  have hperm := List.perm_cons_erase hz0
  rw [(hperm.map _).sum_eq, List.map_cons, List.sum_cons]
  have h1 : clip mp (p z0) = 1 - mp := by simp [clip, hh, not_lt.mpr hge]
  have h2 : ((zs.erase z0).map fun z => clip mp (p z)) = (zs.erase z0).map fun _ => mp := by
    apply List.map_congr_left
    intro z hz
    have hz' := (hzs.mem_erase_iff).mp hz
    simp [clip, hlow z hz'.2 hz'.1]
  rw [h1, h2, List.map_const', List.sum_replicate, List.length_erase_of_mem hz0, nsmul_eq_mul]
  have : 1 ≤ zs.length := List.length_pos_iff.mpr (List.ne_nil_of_mem hz0)
  push_cast [Nat.cast_sub this]
  ring

theorem sum_counts (data : List (KX × KZ)) (x : KX) (zs : List KZ) (hzs : zs.Nodup)
    (hall : ∀ z ∈ data.map Prod.snd, z ∈ zs) :
    (zs.map fun z => (data.count (x, z) : α)).sum = ((data.map Prod.fst).count x : α) := by
  induction data with
  | nil => simp
  | cons q data ih =>
    have ih' := ih (fun z hz => hall z (by simp only [List.map_cons, List.mem_cons]; exact Or.inr hz))
    obtain ⟨a, b⟩ := q
    have hb : b ∈ zs := hall b (by simp)
    have : (zs.map fun z => (((a, b) :: data).count (x, z) : α)) =
        zs.map fun z => (data.count (x, z) : α) + (if (a = x ∧ b = z) then 1 else 0) := by
      apply List.map_congr_left
      intro z _
      rw [List.count_cons]
      push_cast
      simp
    rw [this, List.sum_map_add, ih', List.map_cons, List.count_cons]
    push_cast
    congr 1
    by_cases hax : a = x
    · subst hax
      simp only [true_and, beq_self_eq_true, if_true]
      rw [(List.perm_cons_erase hb |>.map _).sum_eq, List.map_cons, List.sum_cons, if_pos rfl]
      have : ((zs.erase b).map fun z => if b = z then (1 : α) else 0) = (zs.erase b).map fun _ => 0 := by
        apply List.map_congr_left
        intro z hz
        have := ((hzs.mem_erase_iff).mp hz).1
        rw [if_neg (fun e => this e.symm)]
      rw [this]; simp
    · simp [hax]

end Tab
end Verif
