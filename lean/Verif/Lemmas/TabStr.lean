import Verif.Lemmas.Tabular2

set_option linter.unusedSectionVars false

namespace Verif

namespace Dict
variable {K V : Type} [DecidableEq K]

/-- the keys, in order of insertion -/
def keys (d : Dict K V) : List K := d.map Prod.fst

theorem keys_set (d : Dict K V) (k : K) (v : V) : (d.set k v).keys = addKey d.keys k := by
  induction d with
  | nil => simp [set, keys, addKey]
  | cons p d ih =>
    obtain ⟨a, b⟩ := p
    simp only [keys] at ih ⊢
    by_cases h : a = k
    · subst h; simp [set, addKey]
    · have h' : ¬ k = a := fun e => h e.symm
      simp only [set, h, if_false, List.map_cons, ih, addKey, List.mem_cons, h', false_or]
      split <;> simp

theorem get?_isSome (d : Dict K V) (k : K) : (d.get? k).isSome ↔ k ∈ d.keys := by
  induction d with
  | nil => simp [get?, keys]
  | cons p d ih =>
    obtain ⟨a, b⟩ := p
    simp only [keys] at ih ⊢
    by_cases h : a = k
    · subst h; simp [get?]
    · have h' : ¬ k = a := fun e => h e.symm
      simp [get?, h, h', ih]

theorem keys_touch (d : Dict K V) (k : K) (v : V) : (d.touch k v).keys = addKey d.keys k := by
  unfold touch
  split
  · rename_i w h
    have := (get?_isSome d k).mp (by rw [h]; rfl)
    simp [addKey, this]
  · exact keys_set d k v

theorem get?_of_mem {d : Dict K V} (hd : d.keys.Nodup) {k : K} {v : V} (h : (k, v) ∈ d) : d.get? k = some v := by
  induction d with
  | nil => simp at h
  | cons p d ih =>
    obtain ⟨a, b⟩ := p
    simp only [keys, List.map_cons, List.nodup_cons] at hd ih
    rcases List.mem_cons.mp h with h | h
    · obtain ⟨rfl, rfl⟩ := Prod.mk.inj h; simp [get?]
    · have : ¬ a = k := by rintro rfl; exact hd.1 (List.mem_map.mpr ⟨_, h, rfl⟩)
      simp [get?, this, ih hd.2 h]

theorem getD_of_mem {d : Dict K V} (hd : d.keys.Nodup) {k : K} {v : V} (h : (k, v) ∈ d) (dv : V) : d.getD k dv = v := by
  rw [getD, get?_of_mem hd h]; rfl

theorem mem_of_key {d : Dict K V} {k : K} (h : k ∈ d.keys) (dv : V) : (k, d.getD k dv) ∈ d := by
  induction d with
  | nil => simp [keys] at h
  | cons p d ih =>
    obtain ⟨a, b⟩ := p
    by_cases e : a = k
    · subst e; simp [getD, get?]
    · have e' : ¬ k = a := fun e1 => e e1.symm
      simp only [keys, List.map_cons, List.mem_cons, e', false_or] at h ih
      have := ih h
      simp only [getD, get?, e, if_false] at this ⊢
      exact List.mem_cons_of_mem _ this

end Dict

namespace Tab
variable {KX KZ α : Type} [DecidableEq KX] [DecidableEq KZ] [Field α] [LinearOrder α]

theorem addKey_of_mem {K : Type} [DecidableEq K] {l : List K} {k : K} (h : k ∈ l) : addKey l k = l := by simp [addKey, h]

/-- printing succeeds when all keys are known -/
theorem str_ok (t : Tab KX KZ α) (h : ∀ r ∈ t.table, r.1 ∈ t.xValues ∧ ∀ c ∈ r.2, c.1 ∈ t.zValues) : t.str = .ok t.table := by
  unfold str
  have hrow : ∀ row : Dict KZ α, (∀ c ∈ row, c.1 ∈ t.zValues) →
      row.mapM (fun c : KZ × α => if c.1 ∉ t.zValues then (.error .keyError : Except PyErr _) else .ok c) = .ok row := by
    intro row hr
    induction row with
    | nil => rfl
    | cons c row ih =>
      rw [List.mapM_cons, if_neg (not_not_intro (hr c (by simp))), ih fun c hc => hr c (by simp [hc])]
      rfl
  generalize t.table = d at h
  induction d with
  | nil => rfl
  | cons r d ih =>
    rw [List.mapM_cons, if_neg (not_not_intro (h r (by simp)).1), hrow r.2 (h r (by simp)).2, ih fun r hr => h r (by simp [hr])]
    rfl

/-- and raises `KeyError` otherwise -/
theorem str_error (t : Tab KX KZ α) (h : ∃ r ∈ t.table, r.1 ∉ t.xValues ∨ ∃ c ∈ r.2, c.1 ∉ t.zValues) : t.str = .error .keyError := by
  unfold str
  have hrow : ∀ row : Dict KZ α, (∃ c ∈ row, c.1 ∉ t.zValues) →
      row.mapM (fun c : KZ × α => if c.1 ∉ t.zValues then (.error .keyError : Except PyErr _) else .ok c) = .error .keyError := by
    rintro row ⟨c, hc, hz⟩
    induction row with
    | nil => simp at hc
    | cons c' row ih =>
      rw [List.mapM_cons]
      by_cases h1 : c'.1 ∉ t.zValues
      · rw [if_pos h1]; rfl
      · rw [if_neg h1]
        rcases List.mem_cons.mp hc with rfl | hc
        · exact absurd hz h1
        · rw [ih hc]; rfl
  have hrow' : ∀ row : Dict KZ α, (∃ o, row.mapM (fun c : KZ × α => if c.1 ∉ t.zValues then (.error .keyError : Except PyErr _) else .ok c) = .ok o) ∨
      row.mapM (fun c : KZ × α => if c.1 ∉ t.zValues then (.error .keyError : Except PyErr _) else .ok c) = .error .keyError := by
    intro row
    by_cases hr : ∃ c ∈ row, c.1 ∉ t.zValues
    · exact .inr (hrow row hr)
    · left
      push Not at hr
      induction row with
      | nil => exact ⟨[], rfl⟩
      | cons c row ih =>
        obtain ⟨o, ho⟩ := ih fun c hc => hr c (by simp [hc])
        refine ⟨c :: o, ?_⟩
        rw [List.mapM_cons, if_neg (not_not_intro (hr c (by simp))), ho]
        rfl
  obtain ⟨r, hr, hbad⟩ := h
  generalize t.table = d at hr
  induction d with
  | nil => simp at hr
  | cons r' d ih =>
    rw [List.mapM_cons]
    by_cases h1 : r'.1 ∉ t.xValues
    · rw [if_pos h1]; rfl
    rw [if_neg h1]
    rcases hrow' r'.2 with ⟨o, ho⟩ | ho
    · rw [ho]
      rcases List.mem_cons.mp hr with rfl | hr
      · rcases hbad with hb | hb
        · exact absurd hb h1
        · rw [hrow _ hb] at ho; simp at ho
      · rw [ih hr]; rfl
    · rw [ho]; rfl

/-- The table has a row for every known `x` and every row an entry for every known `z`, once each. -/
def Full (t : Tab KX KZ α) (d : Dict KX (Dict KZ α)) : Prop :=
  d.keys.Nodup ∧ (∀ x, x ∈ d.keys ↔ x ∈ t.xValues) ∧ ∀ x ∈ t.xValues, (d.getD x []).keys.Nodup ∧ ∀ z, z ∈ (d.getD x []).keys ↔ z ∈ t.zValues

/-! ### the keys during `fit` -/

/-- counting keeps the keys of the table among the known ones -/
theorem keys_countStep (t : Tab KX KZ α) (p : KX × KZ)
    (h : t.table.keys.Nodup ∧ (∀ x ∈ t.table.keys, x ∈ t.xValues) ∧ ∀ x, (t.table.getD x []).keys.Nodup ∧ ∀ z ∈ (t.table.getD x []).keys, z ∈ t.zValues) :
    (t.countStep p).table.keys.Nodup ∧ (∀ x ∈ (t.countStep p).table.keys, x ∈ (t.countStep p).xValues) ∧
      ∀ x, ((t.countStep p).table.getD x []).keys.Nodup ∧ ∀ z ∈ ((t.countStep p).table.getD x []).keys, z ∈ (t.countStep p).zValues := by
  obtain ⟨h1, h2, h3⟩ := h
  refine ⟨?_, ?_, fun x => ?_⟩
  · simp only [countStep, Dict.keys_set]; exact nodup_addKey _ _ h1
  · simp only [countStep, Dict.keys_set, mem_addKey]
    rintro x (h | rfl)
    · exact .inl (h2 x h)
    · exact .inr rfl
  · simp only [countStep, Dict.getD_set]
    split
    · rename_i e; subst e
      rw [Dict.keys_set]
      refine ⟨nodup_addKey _ _ (h3 _).1, ?_⟩
      simp only [mem_addKey]
      rintro z (h | rfl)
      · exact .inl ((h3 _).2 z h)
      · exact .inr rfl
    · exact ⟨(h3 x).1, fun z hz => (mem_addKey _ _ _).mpr (.inl ((h3 x).2 z hz))⟩

theorem keys_count_fold (l : List (KX × KZ)) (t : Tab KX KZ α)
    (h : t.table.keys.Nodup ∧ (∀ x ∈ t.table.keys, x ∈ t.xValues) ∧ ∀ x, (t.table.getD x []).keys.Nodup ∧ ∀ z ∈ (t.table.getD x []).keys, z ∈ t.zValues) :
    (l.foldl countStep t).table.keys.Nodup ∧ (∀ x ∈ (l.foldl countStep t).table.keys, x ∈ (l.foldl countStep t).xValues) ∧
      ∀ x, ((l.foldl countStep t).table.getD x []).keys.Nodup ∧
        ∀ z ∈ ((l.foldl countStep t).table.getD x []).keys, z ∈ (l.foldl countStep t).zValues := by
  induction l generalizing t with
  | nil => exact h
  | cons p l ih => exact ih _ (keys_countStep t p h)

theorem keys_rowLoop {mp N : α} {zs : List KZ} {s : Dict KZ α × List KZ × α} {s' : Dict KZ α × List KZ × α}
    (h : rowLoop mp N zs s = (.ok (), s')) : s'.1.keys = mergeKeys s.1.keys zs ∧ ∀ z ∈ s'.2.1, z ∈ s.2.1 ∨ z ∈ zs := by
  induction zs generalizing s with
  | nil =>
    obtain rfl := (Prod.mk.inj h).2
    exact ⟨rfl, fun z hz => .inl hz⟩
  | cons z zs ih =>
    obtain ⟨row, nv, V⟩ := s
    unfold rowLoop at h
    split at h
    · simp at h
    · dsimp only at h
      split at h
      · obtain ⟨g1, g2⟩ := ih h
        refine ⟨by rw [g1, Dict.keys_set]; rfl, fun y hy => (g2 y hy).imp id fun h => by simp [h]⟩
      · split at h
        · obtain ⟨g1, g2⟩ := ih h
          refine ⟨by rw [g1, Dict.keys_set]; rfl, fun y hy => (g2 y hy).imp id fun h => by simp [h]⟩
        · obtain ⟨g1, g2⟩ := ih h
          refine ⟨by rw [g1, Dict.keys_set]; rfl, fun y hy => ?_⟩
          have := g2 y hy
          simp only [List.mem_append, List.mem_cons, List.not_mem_nil] at this ⊢
          tauto

theorem keys_spread_aux (c : α) (nv : List KZ) (row : Dict KZ α) (h : ∀ z ∈ nv, z ∈ row.keys) :
    (nv.foldl (fun row z => row.set z (row.getD z 0 - c)) row).keys = row.keys := by
  induction nv generalizing row with
  | nil => rfl
  | cons z nv ih =>
    have e : (row.set z (row.getD z 0 - c)).keys = row.keys := by rw [Dict.keys_set, addKey_of_mem (h z (by simp))]
    rw [List.foldl_cons, ih _ (by rw [e]; exact fun y hy => h y (by simp [hy])), e]

/-- the normalisation loop fills the rows it visits -/
theorem keys_normLoop {mp : α} {xs : List KX} {t t' : Tab KX KZ α} (h : normLoop mp xs t = (.ok (), t'))
    (hd : ∀ x, (t.table.getD x []).keys.Nodup ∧ ∀ z ∈ (t.table.getD x []).keys, z ∈ t.zValues) :
    t'.xValues = t.xValues ∧ t'.zValues = t.zValues ∧ t'.table.keys = mergeKeys t.table.keys xs ∧
      (∀ x, (t'.table.getD x []).keys.Nodup ∧ ∀ z ∈ (t'.table.getD x []).keys, z ∈ t.zValues) ∧
      ∀ x, (x ∈ xs ∨ ∀ z ∈ t.zValues, z ∈ (t.table.getD x []).keys) → ∀ z ∈ t.zValues, z ∈ (t'.table.getD x []).keys := by
  induction xs generalizing t with
  | nil =>
    obtain rfl := (Prod.mk.inj h).2
    exact ⟨rfl, rfl, rfl, hd, fun x hx => hx.resolve_left (by simp)⟩
  | cons x xs ih =>
    unfold normLoop at h
    dsimp only at h
    split at h
    · simp at h
    · split at h
      · simp at h
      · rename_i row' nv V hrow
        obtain ⟨k1, k2⟩ := keys_rowLoop hrow
        have k3 : (spread nv V row').keys = row'.keys := by
          refine keys_spread_aux _ nv row' fun z hz => ?_
          rw [k1, mem_mergeKeys]
          rcases k2 z hz with h | h
          · simp at h
          · exact .inr h
        have hrowk : ∀ z, z ∈ (spread nv V row').keys ↔ z ∈ t.zValues := by
          intro z
          rw [k3, k1, mem_mergeKeys]
          exact ⟨fun h => h.elim ((hd x).2 z) id, .inr⟩
        obtain ⟨g1, g2, g3, g4, g5⟩ := ih h (by
          intro y
          dsimp only
          rw [Dict.getD_set]
          split
          · refine ⟨?_, fun z hz => (hrowk z).mp hz⟩
            rw [k3, k1]
            exact nodup_mergeKeys _ _ (hd x).1
          · rw [Dict.getD_touch]; exact hd y)
        refine ⟨g1, g2, ?_, g4, fun y hy => g5 y ?_⟩
        · rw [g3]
          dsimp only
          rw [Dict.keys_set, Dict.keys_touch, addKey_of_mem (by rw [mem_addKey]; exact .inr rfl)]
          rfl
        · dsimp only
          rw [Dict.getD_set]
          by_cases e : x = y
          · rw [if_pos e]; right; exact fun z hz => (hrowk z).mpr hz
          · rw [if_neg e, Dict.getD_touch]
            rcases hy with hy | hy
            · left
              rcases List.mem_cons.mp hy with h | h
              · exact absurd h.symm e
              · exact h
            · exact .inr hy

/-- a successful `fit` leaves a full table -/
theorem fit_full {t t' : Tab KX KZ α} {xs : List KX} {zs : List KZ} (h : t.fit xs zs = (.ok (), t')) : Full t' t'.table := by
  unfold fit at h
  split at h
  · simp at h
  · dsimp only at h
    split at h
    · simp at h
    · split at h
      · simp at h
      · obtain ⟨c1, c2, c3⟩ := keys_count_fold (xs.zip zs) { t with nUnits := xs.length, table := [], xMarginal := [] }
          ⟨by simp [Dict.keys], by simp [Dict.keys], by simp [Dict.keys, Dict.getD, Dict.get?]⟩
        obtain ⟨g1, g2, g3, g4, g5⟩ := keys_normLoop h c3
        refine ⟨?_, fun x => ?_, fun x hx => ⟨(g4 x).1, fun z => ⟨fun hz => ?_, fun hz => ?_⟩⟩⟩
        · rw [g3]; exact nodup_mergeKeys _ _ c1
        · rw [g3, mem_mergeKeys, g1]
          exact ⟨fun h => h.elim (c2 x) id, .inr⟩
        · rw [g2]; exact (g4 x).2 z hz
        · rw [g1] at hx
          rw [g2] at hz
          exact g5 x (.inl hx) z hz

/-! ### the keys during `predict` -/

/-- predicting known pairs changes nothing -/
theorem predict_known (l : List (KX × KZ)) (t : Tab KX KZ α) (hf : Full t t.table) (h : ∀ q ∈ l, q.1 ∈ t.xValues ∧ q.2 ∈ t.zValues) :
    (t.predict l).2 = t := by
  induction l with
  | nil => rfl
  | cons q l ih =>
    obtain ⟨x, z⟩ := q
    have h0 := h (x, z) (by simp)
    have htouch : (t.table.getD x []).touch z 0 = t.table.getD x [] := by
      have := (Dict.get?_isSome _ z).mpr (((hf.2.2 x h0.1).2 z).mpr h0.2)
      unfold Dict.touch
      split
      · rfl
      · rename_i e; rw [e] at this; simp at this
    have hset : t.table.set x (t.table.getD x []) = t.table := by
      have hx : x ∈ t.table.keys := (hf.2.1 x).mpr h0.1
      generalize t.table = d at hx
      clear * - hx
      induction d with
      | nil => simp [Dict.keys] at hx
      | cons p d ih =>
        obtain ⟨a, b⟩ := p
        by_cases e : a = x
        · subst e; simp [Dict.set, Dict.getD, Dict.get?]
        · have e' : ¬ x = a := fun e1 => e e1.symm
          simp only [Dict.keys, List.map_cons, List.mem_cons, e', false_or] at hx ih
          have := ih hx
          simp only [Dict.getD] at this
          simp only [Dict.set, Dict.getD, Dict.get?, e, if_false, this]
    show (predict { t with table := t.table.set x ((t.table.getD x []).touch z 0) } l).2 = t
    rw [htouch, hset]
    exact ih fun q hq => h q (by simp [hq])

/-- keys once in the table stay in the table -/
theorem predict_keys (l : List (KX × KZ)) (t : Tab KX KZ α) :
    (t.predict l).2.xValues = t.xValues ∧ (t.predict l).2.zValues = t.zValues ∧
      (∀ x ∈ t.table.keys, x ∈ (t.predict l).2.table.keys) ∧
      (∀ x, ∀ z ∈ (t.table.getD x []).keys, z ∈ ((t.predict l).2.table.getD x []).keys) ∧
      ∀ q ∈ l, q.1 ∈ (t.predict l).2.table.keys ∧ q.2 ∈ ((t.predict l).2.table.getD q.1 []).keys := by
  induction l generalizing t with
  | nil => exact ⟨rfl, rfl, fun _ h => h, fun _ _ h => h, by simp⟩
  | cons q l ih =>
    obtain ⟨x, z⟩ := q
    obtain ⟨g1, g2, g3, g4, g5⟩ := ih { t with table := t.table.set x ((t.table.getD x []).touch z 0) }
    have e : (t.predict ((x, z) :: l)).2 = (predict { t with table := t.table.set x ((t.table.getD x []).touch z 0) } l).2 := rfl
    rw [e]
    have k1 : ∀ y ∈ t.table.keys, y ∈ (t.table.set x ((t.table.getD x []).touch z 0)).keys := by
      intro y hy; rw [Dict.keys_set, mem_addKey]; exact .inl hy
    have k2 : ∀ y, ∀ z' ∈ (t.table.getD y []).keys, z' ∈ ((t.table.set x ((t.table.getD x []).touch z 0)).getD y []).keys := by
      intro y z' hz
      rw [Dict.getD_set]
      split
      · rename_i h; subst h; rw [Dict.keys_touch, mem_addKey]; exact .inl hz
      · exact hz
    refine ⟨g1, g2, fun y hy => g3 y (k1 y hy), fun y z' hz => g4 y z' (k2 y z' hz), fun q hq => ?_⟩
    rcases List.mem_cons.mp hq with rfl | hq
    · refine ⟨g3 x ?_, g4 x z ?_⟩
      · show x ∈ Dict.keys (Dict.set t.table x _)
        rw [Dict.keys_set, mem_addKey]; exact .inr rfl
      · show z ∈ Dict.keys (Dict.getD (Dict.set t.table x _) x [])
        rw [Dict.getD_set, if_pos rfl, Dict.keys_touch, mem_addKey]; exact .inr rfl
    · exact g5 q hq

end Tab
end Verif
