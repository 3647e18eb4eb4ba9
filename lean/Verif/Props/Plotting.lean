import Verif.Lemmas.Notebook
import Verif.Props.Bandits

/-!
# Properties C82-C84: plots and the summaries of the notebook
-/

set_option linter.unusedSectionVars false

namespace Verif
namespace Plotting
open Bandit
variable {I S W β α : Type} [Field α] [LinearOrder α] [DecidableEq I]
variable {env : BanditEnv W β} {ops : ArmOps S W β α} {cfg : BanditCfg I α} {all : Option (ExpData β)} {fuel : Nat}
  {heap : I → S} {w : W} {bd : BanditData I α} {s' : (I → S) × W}

omit [DecidableEq I] in
theorem unitsUsed_const (u n : Nat) (rs : List (RoundRec I S β α)) (h : ∀ r ∈ rs, r.arms.length = n) (t : Nat) (ht : t < rs.length) :
    unitsUsed u rs t = (t + 1) * (n * u) := by
  unfold unitsUsed
  rw [sum_const_map _ _ (n * u)]
  · rw [List.length_take, min_eq_left (by omega)]
  · intro r hr
    have := h r (List.mem_of_mem_take hr)
    simp only [RoundRec.arms, List.length_map] at this
    rw [this]

/-- The rounds of a returned run, and what is recorded about them. -/
theorem returned_rounds (hnd : cfg.arms.Nodup) (hr : Returned env ops cfg all fuel (heap, w) bd s') :
    ∃ rs, Rounds ops heap rs s'.1 ∧ Faithful ops cfg.arms cfg.unitsPerRound rs bd ∧
      ∀ t < rs.length, bd.cum[t]? = some (unitsUsed cfg.unitsPerRound rs t) := by
  rcases hr with hr | hr | hr
  · obtain ⟨rs, L, h⟩ := uniform_master hnd hr
    refine ⟨rs, h.ran.rounds, h.ran.faithful, ?_⟩
    intro t ht
    rw [h.cum, List.getElem?_map, List.getElem?_range ht, unitsUsed_const _ cfg.arms.length _ (fun r hr => by rw [h.arms r hr]) t ht]
    rfl
  · obtain ⟨r0, rs, L, h⟩ := lucb_master hnd hr
    refine ⟨r0 :: rs, h.ran.rounds, h.ran.faithful, ?_⟩
    intro t ht
    rw [List.length_cons] at ht
    rw [h.cum, List.getElem?_map, List.getElem?_range ht]
    simp only [Option.map_some, Option.some.injEq]
    unfold unitsUsed
    rw [List.take_succ_cons, List.map_cons, List.sum_cons, sum_const_map _ _ (2 * cfg.unitsPerRound)]
    · rw [List.length_take, min_eq_left (by omega)]
      have := congrArg List.length h.first
      simp only [RoundRec.arms, List.length_map] at this
      rw [this]
    · intro r hr
      have := (h.arms r (List.mem_of_mem_take hr)).1
      simp only [RoundRec.arms, List.length_map] at this
      rw [this]
  · obtain ⟨rs, h⟩ := se_master hnd hr
    refine ⟨rs, h.ran.rounds, h.ran.faithful, ?_⟩
    intro t ht
    rw [h.cum, List.getElem?_map, List.getElem?_range ht]
    simp [samplesAfter, unitsUsed, RoundRec.arms]

/-! ## C82 -/

/-- **C82** Whatever the algorithm and the number of points to ignore, the results of a run can be plotted for any of its
arms, in any order: for every arm listed the figure gets the three lines and the band of that arm, in which every point
belongs to one round. -/
theorem C82_plot (hnd : cfg.arms.Nodup) (hr : Returned env ops cfg all fuel (heap, w) bd s') (name : I → String)
    (k : Option Int) (arms : List I) (ha : ∀ a ∈ arms, a ∈ cfg.arms) (ax : List (Artist α)) :
    ∃ (rs : List (RoundRec I S β α)) (drawn : List (List (Artist α))), Rounds ops heap rs s'.1 ∧
      plotBanditResults name cfg.arms bd k arms ax = (.ok (), ax ++ drawn.flatten) ∧ drawn.length = arms.length ∧
      ∀ (i : Nat) (a : I), arms[i]? = some a → ∃ d, drawn[i]? = some d ∧
        Shows ops cfg.unitsPerRound rs (omitted k rs.length) (name a) a d := by
  obtain ⟨rs, h1, h2, h3⟩ := returned_rounds hnd hr
  refine ⟨rs, _, h1, plot_ok name cfg.arms bd k (faithful_lengths h2) arms ha ax, by simp, ?_⟩
  intro i a hi
  refine ⟨armArtists name bd (omitted k bd.cum.length) a, by simp [hi], ?_⟩
  rw [h2.cum]
  exact shows_of_faithful h2 h3 name _ a (ha a (List.mem_of_getElem? hi))

/-- **C82** An arm the algorithm does not know stops the plot with a `KeyError`; the arms before it have been drawn. -/
theorem C82_unknown_arm (hnd : cfg.arms.Nodup) (hr : Returned env ops cfg all fuel (heap, w) bd s') (name : I → String)
    (k : Option Int) (known rest : List I) (b : I) (ha : ∀ a ∈ known, a ∈ cfg.arms) (hb : b ∉ cfg.arms) (ax : List (Artist α)) :
    ∃ (rs : List (RoundRec I S β α)) (drawn : List (List (Artist α))), Rounds ops heap rs s'.1 ∧
      plotBanditResults name cfg.arms bd k (known ++ b :: rest) ax = (.error .keyError, ax ++ drawn.flatten) ∧
      drawn.length = known.length ∧
      ∀ (i : Nat) (a : I), known[i]? = some a → ∃ d, drawn[i]? = some d ∧
        Shows ops cfg.unitsPerRound rs (omitted k rs.length) (name a) a d := by
  obtain ⟨rs, h1, h2, h3⟩ := returned_rounds hnd hr
  refine ⟨rs, _, h1, plot_unknown name cfg.arms bd k (faithful_lengths h2) known ha b hb rest ax, by simp, ?_⟩
  intro i a hi
  refine ⟨armArtists name bd (omitted k bd.cum.length) a, by simp [hi], ?_⟩
  rw [h2.cum]
  exact shows_of_faithful h2 h3 name _ a (ha a (List.mem_of_getElem? hi))

example : (demoBandit 100).arms.Nodup ∧ (∀ a ∈ [2, 0], a ∈ (demoBandit 100).arms) ∧ 7 ∉ (demoBandit 100).arms ∧
    ∃ bd s', Returned demoEnv scriptOps (demoBandit 100) none 10 (demoHeap, 0) bd s' ∧
      (decide ((plotBanditResults (fun a => toString a) [0, 1, 2] bd (some 1) [2, 0] []).2.head? =
        some (.line (some "2") [12, 16] [.fin 9, .fin 9])) = true) := by
  refine ⟨by decide, by decide, by decide, ?_⟩
  obtain ⟨bd, s', h1, h2⟩ := returned (m := seRun demoEnv scriptOps (demoBandit 100) none 10 (demoHeap, 0))
    (fun bd => decide ((plotBanditResults (fun a => toString a) [0, 1, 2] bd (some 1) [2, 0] []).2.head? =
        some (.line (some "2") [12, 16] [.fin 9, .fin 9]))) (by decide +kernel)
  exact ⟨bd, s', Or.inr (Or.inr h1), h2⟩

/-! ## C83 -/

/-- **C83** The number of samples the notebook reports for the uniform algorithm, computed from a run of successive
elimination of at least one round, is `rounds * arms * units`: the number a run of the uniform algorithm on the same arms has
used after the same number of rounds.  The number reported for successive elimination is at most that, and equal to it only
if no arm was eliminated before the last round. -/
theorem C83_uniform_count (hnd : cfg.arms.Nodup) (hr : seRun env ops cfg all fuel (heap, w) = (.ok (some bd), s'))
    (hne : bd.cum ≠ []) :
    ∃ c, reportedSamples bd = .ok c ∧
      reportedUniform cfg.arms bd = .ok (bd.cum.length * (cfg.arms.length * cfg.unitsPerRound)) ∧
      c ≤ bd.cum.length * (cfg.arms.length * cfg.unitsPerRound) ∧
      (0 < cfg.unitsPerRound → (c = bd.cum.length * (cfg.arms.length * cfg.unitsPerRound) ↔
        ∀ a ∈ cfg.arms, ∀ n ∈ bd.samples a, n = cfg.unitsPerRound)) := by
  obtain ⟨rs, h⟩ := se_master hnd hr
  have hlen := h.ran.faithful.cum
  have hpos : 0 < rs.length := by
    rw [← hlen]; exact List.length_pos_iff.mpr hne
  set u := cfg.unitsPerRound with hu
  set A := cfg.arms.length with hA
  have hsub : ∀ r ∈ rs, r.arms.Sublist cfg.arms := by
    intro r hrm
    obtain ⟨i, hi⟩ := List.mem_iff_getElem?.mp hrm
    exact h.chain.sublist i r hi
  have hmono : ∀ (d i : Nat) (r r' : RoundRec I S β α), rs[i]? = some r → rs[i + d]? = some r' → ∀ a ∈ r'.arms, a ∈ r.arms := by
    intro d
    induction d with
    | zero =>
      intro i r r' h1 h2 a ha
      rw [Nat.add_zero, h1] at h2
      cases h2; exact ha
    | succ d ih =>
      intro i r r' h1 h2 a ha
      have hlt := (List.getElem?_eq_some_iff.mp h2).1
      have hm : rs[i + d]? = some (rs[i + d]'(by omega)) := List.getElem?_eq_getElem (by omega)
      refine ih i r _ h1 hm a ?_
      obtain ⟨_, _, _, _, e⟩ := h.chain.link (i + d) _ r' hm h2
      rw [e] at ha
      exact List.mem_of_mem_filter ha
  have hlast : rs[rs.length - 1]? = some (rs[rs.length - 1]'(by omega)) := List.getElem?_eq_getElem (by omega)
  generalize rs[rs.length - 1]'(by omega) = rl at hlast
  have hcum : bd.cum.getLast? = some (samplesAfter u rs rs.length) := by
    rw [List.getLast?_eq_getElem?, hlen, h.cum, List.getElem?_map, List.getElem?_range (by omega)]
    simp only [Option.map_some, Nat.sub_add_cancel hpos]
    rfl
  have hall : ∀ a ∈ cfg.arms, (bd.samples a).sum ≤ rs.length * u := by
    intro a ha
    rw [h.ran.faithful.samples a ha]
    calc _ ≤ (rs.map fun _ => u).sum := List.sum_le_sum (fun r _ => by split <;> omega)
      _ = rs.length * u := by simp
  have htop : ∃ a ∈ cfg.arms, (bd.samples a).sum = rs.length * u := by
    have h2 := h.chain.two rl (List.mem_of_getElem? hlast)
    obtain ⟨a, ha⟩ := List.exists_mem_of_length_pos (l := rl.arms) (by omega)
    have hac := (hsub rl (List.mem_of_getElem? hlast)).subset ha
    refine ⟨a, hac, ?_⟩
    rw [h.ran.faithful.samples a hac]
    have : (rs.map fun r => if a ∈ r.arms then cfg.unitsPerRound else 0) = rs.map fun _ => u := by
      apply List.map_congr_left
      intro r hrm
      obtain ⟨i, hi⟩ := List.mem_iff_getElem?.mp hrm
      have hlt := (List.getElem?_eq_some_iff.mp hi).1
      rw [if_pos (hmono (rs.length - 1 - i) i r rl hi (by rw [show i + (rs.length - 1 - i) = rs.length - 1 by omega]; exact hlast) a ha)]
    rw [this]; simp
  have hle : ∀ r ∈ rs, r.arms.length * u ≤ A * u := fun r hrm => Nat.mul_le_mul_right _ (hsub r hrm).length_le
  have hconst : (rs.map fun _ => A * u).sum = rs.length * (A * u) := by simp
  have hs : samplesAfter u rs rs.length = (rs.map fun r => r.arms.length * u).sum := by simp [samplesAfter]
  refine ⟨samplesAfter u rs rs.length, by simp [reportedSamples, lastOf, hcum], ?_, ?_, ?_⟩
  · obtain ⟨a, ha, e⟩ := htop
    unfold reportedUniform
    rw [maxOf_const _ (rs.length * u)]
    · simp only [bind, Except.bind, pure, Except.pure, hlen, Except.ok.injEq]
      rw [← hA, Nat.mul_assoc, Nat.mul_comm u]
    · intro x hx
      obtain ⟨b, hb, rfl⟩ := List.mem_map.mp hx
      exact hall b hb
    · exact List.mem_map.mpr ⟨a, ha, e⟩
  · rw [hlen, hs, ← hconst]
    exact List.sum_le_sum hle
  · intro hu0
    rw [hlen, hs, ← hconst]
    have hsum : ∀ l : List (RoundRec I S β α), (∀ r ∈ l, r.arms.length * u ≤ A * u) →
        ((l.map fun r => r.arms.length * u).sum = (l.map fun _ => A * u).sum ↔ ∀ r ∈ l, r.arms.length = A) := by
      intro l
      induction l with
      | nil => simp
      | cons r l ih =>
        intro hl
        have h1 := hl r List.mem_cons_self
        have h2 : (l.map fun r => r.arms.length * u).sum ≤ (l.map fun _ => A * u).sum :=
          List.sum_le_sum fun r hr => hl r (List.mem_cons_of_mem _ hr)
        have ih := ih fun r hr => hl r (List.mem_cons_of_mem _ hr)
        simp only [List.map_cons, List.sum_cons, List.mem_cons, forall_eq_or_imp]
        rw [← ih]
        constructor
        · intro e
          have e1 : r.arms.length * u = A * u := by omega
          exact ⟨Nat.eq_of_mul_eq_mul_right hu0 e1, by omega⟩
        · rintro ⟨e1, e2⟩
          rw [e1, e2]
    rw [hsum rs hle]
    constructor
    · intro he a ha n hn
      rw [h.ran.faithful.samples a ha] at hn
      obtain ⟨r, hrm, rfl⟩ := List.mem_map.mp hn
      rw [(hsub r hrm).eq_of_length (he r hrm), if_pos ha]
    · intro he r hrm
      rw [hA]
      congr 1
      refine (hsub r hrm).eq_of_length_le ?_
      by_contra hlt
      have : ∃ a ∈ cfg.arms, a ∉ r.arms := by
        by_contra hcon
        push Not at hcon
        exact hlt (hnd.subperm hcon).length_le
      obtain ⟨a, ha, hna⟩ := this
      have := he a ha 0 (by
        rw [h.ran.faithful.samples a ha]
        exact List.mem_map.mpr ⟨r, hrm, by rw [if_neg hna]⟩)
      omega

/-- **C83** It is what a run of the uniform algorithm with the same arms and units per round has used after that many
rounds, whatever the data, the arms' answers and the other settings. -/
theorem C83_matches_uniform (hnd : cfg.arms.Nodup) (hr : seRun env ops cfg all fuel (heap, w) = (.ok (some bd), s'))
    (hne : bd.cum ≠ []) {S' W' β' : Type} {env' : BanditEnv W' β'} {ops' : ArmOps S' W' β' α} {cfg' : BanditCfg I α}
    {all' : Option (ExpData β')} {fuel' : Nat} {heap' : I → S'} {w' : W'} {bd' : BanditData I α} {s'' : (I → S') × W'}
    (harms : cfg'.arms = cfg.arms) (hunits : cfg'.unitsPerRound = cfg.unitsPerRound)
    (hr' : uniformRun env' ops' cfg' all' fuel' (heap', w') = (.ok (some bd'), s'')) (hlong : bd.cum.length ≤ bd'.cum.length) :
    ∃ n, reportedUniform cfg.arms bd = .ok n ∧ bd'.cum[bd.cum.length - 1]? = some n := by
  obtain ⟨c, _, h, _⟩ := C83_uniform_count hnd hr hne
  refine ⟨_, h, ?_⟩
  obtain ⟨rs, L, h'⟩ := uniform_master (by rw [harms]; exact hnd) hr'
  have hpos : 0 < bd.cum.length := List.length_pos_iff.mpr hne
  have hl := h'.ran.faithful.cum
  rw [h'.cum, List.getElem?_map, List.getElem?_range (by omega), Option.map_some, Nat.sub_add_cancel hpos, harms, hunits]

/-- **C83** With at most one arm successive elimination returns at once with empty histories, and the notebook's
`cum_samples[-1]` raises `IndexError`. -/
theorem C83_single_arm (hnd : cfg.arms.Nodup) (hr : seRun env ops cfg all fuel (heap, w) = (.ok (some bd), s'))
    (h1 : cfg.arms.length ≤ 1) : reportedSamples bd = .error .indexError := by
  obtain ⟨rs, h⟩ := se_master hnd hr
  have hrs : rs = [] := by
    by_contra hne
    have hpos := List.length_pos_iff.mpr hne
    have hr0 : rs[0]? = some rs[0] := List.getElem?_eq_getElem hpos
    have h2 := h.chain.two rs[0] (List.getElem_mem hpos)
    rw [h.chain.first _ hr0] at h2
    omega
  have := h.ran.faithful.cum
  rw [hrs, List.length_nil, List.length_eq_zero_iff] at this
  simp [reportedSamples, lastOf, this]

example : (demoBandit 100).arms.Nodup ∧ ∃ bd s', seRun demoEnv scriptOps (demoBandit 100) none 10 (demoHeap, 0) = (.ok (some bd), s') ∧
    (decide (bd.cum ≠ []) && (match reportedSamples bd with | .ok c => c == 16 | _ => false) &&
      (match reportedUniform (demoBandit 100).arms bd with | .ok c => c == 18 | _ => false)) = true :=
  ⟨by decide, returned _ (by decide +kernel)⟩

example : ∃ bd s', uniformRun demoEnv scriptOps (demoBandit 100) none 10 (demoHeap, 0) = (.ok (some bd), s') ∧
    (bd.cum[2]? = some 18 : Bool) = true := returned _ (by decide +kernel)

example : ∃ bd s', seRun demoEnv scriptOps ⟨[0], .fin (1 / 10), .fin 0, some (.fin (9 / 10)), some (.fin 5), 2⟩ none 10 (demoHeap, 0) =
    (.ok (some bd), s') ∧ (bd.best = [0] : Bool) = true := returned _ (by decide +kernel)

/-! ## C84 -/

/-- **C84** Selection of the arms to plot, from a run of at least one round: with `m` smaller than the number of arms at most `m` of the arms are selected, in the
order of the list; no arm left out has a smaller last estimate than a selected one; exactly `m` are selected if the last
estimates are distinct numbers. -/
theorem C84_top_arms (hnd : cfg.arms.Nodup) (hr : Returned env ops cfg all fuel (heap, w) bd s') (hne : bd.cum ≠ [])
    (m : Nat) (hm : m < cfg.arms.length) :
    ∃ top, topArms m cfg.arms bd = .ok top ∧ top.Sublist cfg.arms ∧ top.length ≤ m ∧
      (∀ a ∈ top, ∀ b ∈ cfg.arms, b ∉ top → ∃ va vb, bd.finalVar a = some va ∧ bd.finalVar b = some vb ∧ vb.lt va = false ∧
        (vb ≠ .nan → va.lt vb = true)) ∧
      ((∀ a ∈ cfg.arms, bd.finalVar a ≠ some .nan) → (cfg.arms.map bd.finalVar).Nodup → top.length = m) := by
  obtain ⟨rs, h1, h2, h3⟩ := returned_rounds hnd hr
  have hv : ∀ a ∈ cfg.arms, bd.var a ≠ [] := by
    intro a ha h0
    have := (faithful_lengths h2 a ha).1
    rw [h0] at this
    exact hne (List.length_eq_zero_iff.mp this.symm)
  obtain ⟨vs, e1, e2⟩ := lastVars_eq bd cfg.arms hv
  have hlen : vs.length = cfg.arms.length := by
    have := congrArg List.length e2
    simpa using this
  have hlt : m < (sorted vs).length := by rw [(sorted_perm vs).length_eq, hlen]; exact hm
  have hc : (sorted vs)[m]? = some (sorted vs)[m] := List.getElem?_eq_getElem hlt
  generalize (sorted vs)[m] = c at hc
  have htop : topArms m cfg.arms bd = .ok ((cfg.arms.zip vs).filterMap fun p => if p.2.lt c then some p.1 else none) := by
    simp [topArms, e1, bind, Except.bind, hc, pure, Except.pure]
  have hfin : ∀ (i : Nat) (a : I) (v : Fl α), cfg.arms[i]? = some a → vs[i]? = some v → bd.finalVar a = some v := by
    intro i a v ha hv
    have := congrArg (fun l => l[i]?) e2
    simp only [List.getElem?_map, ha, hv, Option.map_some, Option.some.injEq] at this
    exact this.symm
  have hvs : vs = cfg.arms.map fun a => (bd.finalVar a).getD .nan := by
    apply List.map_injective_iff.mpr (Option.some_injective _)
    rw [e2, List.map_map]
    apply List.map_congr_left
    intro a ha
    obtain ⟨i, hi⟩ := List.mem_iff_getElem?.mp ha
    have hiv : i < vs.length := by rw [hlen]; exact (List.getElem?_eq_some_iff.mp hi).1
    simp [hfin i a _ hi (List.getElem?_eq_getElem hiv)]
  have hflt : ((cfg.arms.zip vs).filterMap fun p => if p.2.lt c then some p.1 else none) =
      cfg.arms.filter fun a => ((bd.finalVar a).getD .nan).lt c := by
    rw [hvs]
    generalize cfg.arms = l
    induction l with
    | nil => rfl
    | cons a l ih =>
      simp only [List.map_cons, List.zip_cons_cons, List.filterMap_cons, List.filter_cons, ih]
      cases ((bd.finalVar a).getD .nan).lt c <;> rfl
  have hcount : (cfg.arms.filter fun a => ((bd.finalVar a).getD .nan).lt c).length = vs.countP fun v => v.lt c := by
    rw [hvs, List.countP_map, ← List.countP_eq_length_filter]
    rfl
  have hsome : ∀ a ∈ cfg.arms, ∃ v, bd.finalVar a = some v := by
    intro a ha
    obtain ⟨i, hi⟩ := List.mem_iff_getElem?.mp ha
    have hiv : i < vs.length := by rw [hlen]; exact (List.getElem?_eq_some_iff.mp hi).1
    exact ⟨_, hfin i a _ hi (List.getElem?_eq_getElem hiv)⟩
  rw [hflt] at htop
  refine ⟨_, htop, List.filter_sublist, ?_, ?_, ?_⟩
  · rw [hcount]; exact countP_le vs m c hc
  · intro a ha b hb hbn
    obtain ⟨ha1, ha2⟩ := List.mem_filter.mp ha
    obtain ⟨va, hva⟩ := hsome a ha1
    obtain ⟨vb, hvb⟩ := hsome b hb
    have hb2 : vb.lt c = false := by
      rw [Bool.eq_false_iff]
      intro hcon
      exact hbn (List.mem_filter.mpr ⟨hb, by rw [hvb]; exact hcon⟩)
    rw [hva] at ha2
    exact ⟨va, vb, hva, hvb, not_lt_of_lt_of_not_lt ha2 hb2, lt_of_lt_of_not_lt ha2 hb2⟩
  · intro hn hd
    rw [hcount]
    refine countP_eq vs ?_ ?_ m c hc
    · intro hmem
      rw [hvs] at hmem
      obtain ⟨a, ha, e⟩ := List.mem_map.mp hmem
      obtain ⟨v, hv⟩ := hsome a ha
      rw [hv] at e
      exact hn a ha (by rw [hv]; exact congrArg some e)
    · rw [← e2] at hd
      exact List.Nodup.of_map _ hd

/-- **C84** With `m` at least the number of arms the selection raises `IndexError`. -/
theorem C84_too_many (hnd : cfg.arms.Nodup) (hr : Returned env ops cfg all fuel (heap, w) bd s')
    (m : Nat) (hm : cfg.arms.length ≤ m) : topArms m cfg.arms bd = .error .indexError := by
  obtain ⟨rs, h1, h2, h3⟩ := returned_rounds hnd hr
  by_cases hv : ∀ a ∈ cfg.arms, bd.var a ≠ []
  · obtain ⟨vs, e1, e2⟩ := lastVars_eq bd cfg.arms hv
    have hlen : vs.length = cfg.arms.length := by
      have := congrArg List.length e2
      simpa using this
    have : (sorted vs)[m]? = none := by
      rw [List.getElem?_eq_none_iff, (sorted_perm vs).length_eq, hlen]; exact hm
    simp [topArms, e1, bind, Except.bind, this]
  · push Not at hv
    have : ∀ l : List I, (∃ a ∈ l, bd.var a = []) → lastVars bd l = .error .indexError := by
      intro l
      induction l with
      | nil => rintro ⟨a, ha, _⟩; simp at ha
      | cons b l ih =>
        rintro ⟨a, ha, e⟩
        unfold lastVars lastOf
        rcases hb : (bd.var b).getLast? with _ | v
        · rfl
        · rcases List.mem_cons.mp ha with rfl | ha
          · rw [e] at hb; simp at hb
          · simp [bind, Except.bind, ih ⟨a, ha, e⟩]
    simp [topArms, this _ hv, bind, Except.bind]

example : ∃ bd s', Returned demoEnv scriptOps (demoBandit 100) none 10 (demoHeap, 0) bd s' ∧
    (decide (bd.cum ≠ []) && (match topArms 2 (demoBandit 100).arms bd with | .ok l => l == [0, 1] | _ => false)) = true := by
  obtain ⟨bd, s', h1, h2⟩ := returned (m := seRun demoEnv scriptOps (demoBandit 100) none 10 (demoHeap, 0))
    (fun bd => (decide (bd.cum ≠ []) && (match topArms 2 (demoBandit 100).arms bd with | .ok l => l == [0, 1] | _ => false)))
    (by decide +kernel)
  exact ⟨bd, s', Or.inr (Or.inr h1), h2⟩

/-- Two arms with the same estimate. -/
def twinHeap : Nat → List (Fl ℚ × Fl ℚ × Fl ℚ) × Nat
  | 0 => ([ln 0 10 1, ln 0 9 1], 0)
  | 1 => ([ln 0 10 1, ln 0 9 1], 0)
  | _ => ([ln 0 10 9, ln 3 12 9], 0)

/-- **C84 (violated)** "The best `m` arms": when the estimates tie at the cutoff fewer are plotted.  Here two arms share the
smallest estimate, and the selection of one best arm is empty. -/
theorem C84_ties_violated : ∃ bd s', Returned demoEnv scriptOps (demoBandit 5) none 10 (twinHeap, 0) bd s' ∧
    (match topArms 1 (demoBandit 5).arms bd with | .ok l => l == [] | _ => false) = true := by
  obtain ⟨bd, s', h1, h2⟩ := returned (m := uniformRun demoEnv scriptOps (demoBandit 5) none 10 (twinHeap, 0))
    (fun bd => (match topArms 1 (demoBandit 5).arms bd with | .ok l => l == [] | _ => false)) (by decide +kernel)
  exact ⟨bd, s', Or.inl h1, h2⟩

end Plotting
end Verif
