import Verif.Lemmas.Safe

/-!
# Runs on a fixed dataset that do not raise
-/

set_option linter.unusedSectionVars false
set_option linter.unusedSimpArgs false

namespace Verif
namespace Bandit
variable {I S W β α : Type} [Field α] [LinearOrder α] [IsStrictOrderedRing α] [DecidableEq I]
variable {env : BanditEnv W β} {ops : ArmOps S W β α} {cfg : BanditCfg I α} {New Old : I → S → Prop} {G : ExpData β → Prop} {all : ExpData β}
variable {X : PyErr → (I → S) × W → Prop}

/-- the arm has at most `b` units -/
def Upto (ops : ArmOps S W β α) (P : I → S → Prop) (b : Nat) (a : I) (s : S) : Prop := P a s ∧ ops.numUnits s ≤ b

/-- `Ready`, with a bound on the number of units -/
abbrev ReadyB (ops : ArmOps S W β α) (New Old : I → S → Prop) (b : Nat) (arms l : List I) (s : (I → S) × W) : Prop :=
  Ready (Upto ops New b) (Upto ops Old b) arms l s

theorem hasEstimates_upto (h : HasEstimates ops cfg.arms Old) (b : Nat) : HasEstimates ops cfg.arms (Upto ops Old b) :=
  fun a ha s hs => h a ha s hs.1

theorem ReadyB.mono {b c : Nat} (h : b ≤ c) {arms l : List I} {s : (I → S) × W} (hs : ReadyB ops New Old b arms l s) : ReadyB ops New Old c arms l s :=
  fun a ha => ⟨(hs a ha).1.imp (fun h' => ⟨h'.1, h'.2.trans h⟩) (fun h' => ⟨h'.1, h'.2.trans h⟩), fun hm => ⟨((hs a ha).2 hm).1, ((hs a ha).2 hm).2.trans h⟩⟩

theorem ReadyB.units {b : Nat} {arms l : List I} {s : (I → S) × W} (hs : ReadyB ops New Old b arms l s) {a : I} (ha : a ∈ arms) : ops.numUnits (s.1 a) ≤ b :=
  (hs a ha).1.elim And.right And.right

theorem postB_updateArm (hr : ReliableOn all ops cfg New Old G) (b : Nat) (l : List I) (a : I) (ha : a ∈ cfg.arms) (d : ExpData β) (hd : G d) :
    Py.Post (ReadyB (W := W) ops New Old b cfg.arms l) (updateArm ops a d (level cfg)) (fun _ => ReadyB ops New Old (b + cfg.unitsPerRound) cfg.arms (l ++ [a])) X := by
  rintro ⟨heap, w⟩ hs
  have hb := hs.units ha
  obtain ⟨r, s', w', h1, h2, h3⟩ := hr.update a ha d (heap a) w hd ((hs a ha).1.imp And.left And.left)
  refine Or.inl ⟨(), (Function.update heap a s', w'), ?_, ?_⟩
  · simp [updateArm, h1, Except.map]
  · have hs' := hs.mono (Nat.le_add_right b cfg.unitsPerRound)
    intro c hc
    by_cases hab : c = a
    · subst hab
      simp only [Function.update_self]
      have : Upto ops Old (b + cfg.unitsPerRound) c s' := ⟨h2, by rw [h3]; exact Nat.add_le_add_right hb _⟩
      exact ⟨.inr this, fun _ => this⟩
    · simp only [Function.update_of_ne hab]
      refine ⟨(hs' c hc).1, fun hm => (hs' c hc).2 ?_⟩
      rcases List.mem_append.1 hm with hm | hm
      · exact hm
      · exact absurd (List.mem_singleton.1 hm) hab

theorem postB_updateRecordAll (hr : ReliableOn all ops cfg New Old G) (b : Nat) (d : ExpData β) (hd : G d) (h : Hist I α) :
    Py.Post (ReadyB (W := W) ops New Old b cfg.arms []) (Py.forEach (updateRecord ops cfg d) cfg.arms h)
      (fun h' s => ReadyB ops New Old (b + cfg.arms.length * cfg.unitsPerRound) cfg.arms cfg.arms s ∧ Recorded cfg.arms h' ∧ h'.total = h.total) X := by
  refine (Py.Post.forEach (fun pre h' s => ReadyB ops New Old (b + pre.length * cfg.unitsPerRound) cfg.arms pre s ∧ Recorded pre h' ∧ h'.total = h.total) cfg.arms ?_ h).weaken
    (fun s hs => ⟨by simpa using hs, fun a ha => by simp at ha, rfl⟩) (fun _ _ h => h) (fun _ _ h => h)
  intro pre a post h1 hl s ⟨hs, hh, ht⟩
  have ha : a ∈ cfg.arms := by rw [hl]; simp
  have := Py.Post.bind (postB_updateArm (X := X) hr (b + pre.length * cfg.unitsPerRound) pre a ha d hd) fun _ =>
    post_record (X := X) (hasEstimates_upto hr.estimates _) (pre ++ [a]) pre (fun _ => cfg.unitsPerRound) a ha (by simp) h1 hh
  have e : b + (pre ++ [a]).length * cfg.unitsPerRound = b + pre.length * cfg.unitsPerRound + cfg.unitsPerRound := by
    rw [List.length_append, List.length_singleton, Nat.add_mul, Nat.one_mul, Nat.add_assoc]
  rcases this s hs with ⟨x, s', e1, e2, e3, e4⟩ | ⟨x, s', e1, e2⟩
  · exact Or.inl ⟨x, s', e1, by rw [e]; exact e2, e3, e4.trans ht⟩
  · exact Or.inr ⟨x, s', e1, e2⟩

theorem postB_pulls (hr : ReliableOn all ops cfg New Old G) (b : Nat) (l0 l : List I) (hl : ∀ a ∈ l, a ∈ cfg.arms)
    (hb : b + l.length * cfg.unitsPerRound ≤ all.nUnits) :
    Py.Post (ReadyB (W := W) ops New Old b cfg.arms l0) (Py.forEach (pull env ops cfg (some all)) l ())
      (fun _ => ReadyB ops New Old (b + l.length * cfg.unitsPerRound) cfg.arms (l0 ++ l)) X := by
  refine (Py.Post.forEach (fun pre _ s => ReadyB ops New Old (b + pre.length * cfg.unitsPerRound) cfg.arms (l0 ++ pre) s) l ?_ ()).weaken
    (fun s hs => by simpa using hs) (fun _ _ h => h) (fun _ _ h => h)
  intro pre a post _ e
  have ha : a ∈ cfg.arms := hl a (by rw [e]; simp)
  have hlen : b + pre.length * cfg.unitsPerRound + cfg.unitsPerRound ≤ all.nUnits := by
    refine le_trans ?_ hb
    rw [e, List.length_append, List.length_cons, Nat.add_assoc, ← Nat.succ_mul]
    exact Nat.add_le_add_left (Nat.mul_le_mul_right _ (by omega)) _
  unfold pull samplesFor
  have hslice : Py.Post (ReadyB (W := W) ops New Old (b + pre.length * cfg.unitsPerRound) cfg.arms (l0 ++ pre)) (nextSlice ops all cfg.unitsPerRound a)
      (fun d s => ReadyB ops New Old (b + pre.length * cfg.unitsPerRound) cfg.arms (l0 ++ pre) s ∧ G d) X := by
    rintro ⟨heap, w⟩ hs
    obtain ⟨d, h1, h2⟩ := hr.batch (ops.numUnits (heap a)) (le_trans (Nat.add_le_add_right (hs.units ha) _) hlen)
    exact Or.inl ⟨d, (heap, w), by simp [nextSlice, h1], hs, h2⟩
  refine Py.Post.bind hslice fun d => ?_
  by_cases hd : G d
  swap
  · exact fun s hs => absurd hs.2 hd
  refine (postB_updateArm hr _ (l0 ++ pre) a ha d hd).weaken (fun s hs => hs.1) (fun _ s hs => ?_) (fun _ _ h => h)
  have e2 : b + (pre ++ [a]).length * cfg.unitsPerRound = b + pre.length * cfg.unitsPerRound + cfg.unitsPerRound := by
    rw [List.length_append, List.length_singleton, Nat.add_mul, Nat.one_mul, Nat.add_assoc]
  rw [List.append_assoc] at hs
  rw [e2]
  exact hs

/-- the dataset has room for a round after any round the sample limit allows -/
def Room (cfg : BanditCfg I α) (l : α) (all : ExpData β) : Prop := ∀ t : Nat, (t : α) ≤ l → t + cfg.arms.length * cfg.unitsPerRound ≤ all.nUnits

theorem postB_uniformRun (hr : ReliableOn all ops cfg New Old G) (h2 : 2 ≤ cfg.arms.length) {l : α} (hL : cfg.sampleLimit = some (.fin l)) (hl : 0 ≤ l)
    (hroom : Room cfg l all) (fuel : Nat) :
    Py.Post (ReadyB (W := W) ops New Old 0 cfg.arms []) (uniformRun env ops cfg (some all) fuel) (fun _ _ => True) X := by
  unfold uniformRun
  refine (Py.Post.loop (fun (h : Hist I α) s => (h.total : α) ≤ l ∧ ReadyB ops New Old h.total cfg.arms [] s) (fun _ => True) (fun _ _ _ => trivial) (fun h => ?_) fuel _).weaken
    (fun s hs => ⟨by simpa [Hist.empty] using hl, hs⟩) (fun _ _ h => h) (fun _ _ h => h)
  by_cases ht : (h.total : α) ≤ l
  swap
  · exact fun s hs => absurd hs.1 ht
  have hrm := hroom h.total ht
  unfold uniformRound
  obtain ⟨a, arms', harms⟩ : ∃ a arms', cfg.arms = a :: arms' := by
    cases hc : cfg.arms with
    | nil => simp [hc] at h2
    | cons a l => exact ⟨a, l, rfl⟩
  have ha : a ∈ cfg.arms := by rw [harms]; simp
  have hslice : Py.Post (fun s => (h.total : α) ≤ l ∧ ReadyB (W := W) ops New Old h.total cfg.arms [] s) (uniformSamples env ops cfg (some all))
      (fun d s => ReadyB ops New Old h.total cfg.arms [] s ∧ G d) X := by
    rintro ⟨heap, w⟩ ⟨-, hs⟩
    obtain ⟨d, e1, e2⟩ := hr.batch (ops.numUnits (heap a)) (by
      refine le_trans (Nat.add_le_add_right (hs.units ha) _) (le_trans (Nat.add_le_add_left ?_ _) hrm)
      exact Nat.le_mul_of_pos_left _ (by omega))
    refine Or.inl ⟨d, (heap, w), ?_, hs, e2⟩
    unfold uniformSamples
    simp only [harms, nextSlice, e1]
  refine Py.Post.bind hslice fun d => ?_
  by_cases hd : G d
  swap
  · exact fun s hs => absurd hs.2 hd
  refine Py.Post.bind ((postB_updateRecordAll hr h.total d hd h).weaken (fun s hs => hs.1) (fun _ _ h => h) (fun _ _ h => h)) fun h' => ?_
  by_cases htot : h'.total = h.total
  swap
  · exact fun s hs => absurd hs.2.2 htot
  dsimp only
  have hE := hasEstimates_upto hr.estimates (h.total + cfg.arms.length * cfg.unitsPerRound)
  refine Py.Post.bind (Q := fun over s => over = decide (l < ((h.total + cfg.arms.length * cfg.unitsPerRound : Nat) : α)) ∧
    ReadyB ops New Old (h.total + cfg.arms.length * cfg.unitsPerRound) cfg.arms cfg.arms s)
    (Py.Post.lift (by simp only [overLimit, hL]; rfl) fun s hs => ⟨by simp only [addSamples, htot, Fl.lt], hs.1⟩) fun over => ?_
  by_cases hover : over = decide (l < ((h.total + cfg.arms.length * cfg.unitsPerRound : Nat) : α))
  swap
  · exact fun s hs => absurd hs.1 hover
  refine Py.Post.get_bind fun s hs => ?_
  obtain ⟨heap, w⟩ := s
  dsimp only
  split
  · obtain ⟨best, hb⟩ := lowestVarArms_ready hE hs.2
    refine Py.Post.bind (Q := fun _ s => s = (heap, w)) (Py.Post.lift hb fun _ h => h) fun b => ?_
    exact Py.Post.pure fun _ _ => trivial
  · rename_i hov
    obtain ⟨r, hb⟩ := checkEnd_ready hE h2 hs.2
    refine Py.Post.bind (Q := fun _ s => s = (heap, w)) (Py.Post.lift hb fun _ h => h) fun b => ?_
    split
    · exact Py.Post.pure fun _ _ => trivial
    · refine Py.Post.pure fun s' hs' => ?_
      subst hs'
      refine ⟨?_, ?_⟩
      · simp only [addSamples, htot]
        rw [hover] at hov
        simpa using hov
      · simp only [addSamples, htot]
        exact hs.2.shrink fun a ha => by simp at ha

theorem foldl_setLast_total (n : Nat) (l : List I) (h : Hist I α) : (l.foldl (fun h a => setLastSample n a h) h).total = h.total := by
  induction l generalizing h with
  | nil => rfl
  | cons a l ih => exact (ih _).trans rfl

theorem postB_seRun (hr : ReliableOn all ops cfg New Old G) {l : α} (hL : cfg.sampleLimit = some (.fin l)) (hl : 0 ≤ l) (hroom : Room cfg l all) (fuel : Nat) :
    Py.Post (ReadyB (W := W) ops New Old 0 cfg.arms []) (seRun env ops cfg (some all) fuel) (fun _ _ => True) X := by
  unfold seRun
  refine Py.Post.weaken (Py.Post.loop (fun (st : Hist I α × List I) (s : (I → S) × W) => st.2.Sublist cfg.arms ∧
    (ReadyB ops New Old st.1.total cfg.arms cfg.arms s ∨ (st.2 = cfg.arms ∧ st.1.total = 0 ∧ ReadyB ops New Old 0 cfg.arms [] s))) (fun _ => True)
    (fun _ _ _ => trivial) (fun st => ?_) fuel _)
    (fun s hs => ⟨List.Sublist.refl _, Or.inr ⟨rfl, rfl, hs⟩⟩) (fun _ _ h => h) (fun _ _ h => h)
  by_cases hsub : st.2.Sublist cfg.arms
  swap
  · exact fun s hs => absurd hs.1 hsub
  have hE := hasEstimates_upto hr.estimates
  unfold seRound
  split
  · exact Py.Post.pure fun _ _ => trivial
  · rename_i hlen
    refine Py.Post.bind (Q := fun over s => over = decide (l < (st.1.total : α)) ∧ (over = true → ReadyB ops New Old st.1.total cfg.arms cfg.arms s) ∧
      (ReadyB ops New Old st.1.total cfg.arms cfg.arms s ∨ (st.2 = cfg.arms ∧ ReadyB ops New Old st.1.total cfg.arms [] s)))
      (Py.Post.lift (a := decide (l < (st.1.total : α))) (by simp [overLimit, hL, Fl.lt]) fun s hs => ?_) fun over => ?_
    · rcases hs.2 with h | ⟨h1, h2, h3⟩
      · exact ⟨rfl, fun _ => h, Or.inl h⟩
      · refine ⟨rfl, fun h => ?_, Or.inr ⟨h1, by rw [h2]; exact h3⟩⟩
        rw [h2, Nat.cast_zero, decide_eq_true_iff] at h
        exact absurd h hl.not_gt
    by_cases hover : over = decide (l < (st.1.total : α))
    swap
    · exact fun s hs => absurd hs.1 hover
    split
    · rename_i hov
      refine Py.Post.get_bind fun s hs => ?_
      obtain ⟨heap, w⟩ := s
      dsimp only
      obtain ⟨best, hb⟩ := lowestVarArms_ready (hE _) (hs.2.1 hov)
      refine Py.Post.bind (Q := fun _ s => s = (heap, w)) (Py.Post.lift hb fun _ h => h) fun b => ?_
      exact Py.Post.pure fun _ _ => trivial
    · rename_i hov
      have ht : (st.1.total : α) ≤ l := by rw [hover] at hov; simpa using hov
      have hrm : st.1.total + st.2.length * cfg.unitsPerRound ≤ all.nUnits :=
        le_trans (Nat.add_le_add_left (Nat.mul_le_mul_right _ hsub.length_le) _) (hroom st.1.total ht)
      refine Py.Post.bind (Q := fun _ s => ReadyB ops New Old (st.1.total + st.2.length * cfg.unitsPerRound) cfg.arms cfg.arms s) ?_ fun _ => ?_
      · intro s hs
        rcases hs.2.2 with h | ⟨h1, h3⟩
        · exact ((postB_pulls hr st.1.total cfg.arms st.2 (fun _ h => hsub.subset h) hrm).weaken (fun _ h => h)
            (fun _ s' h => h.shrink fun a ha => List.mem_append_left _ ha) (fun _ _ h => h)) s h
        · exact ((postB_pulls hr st.1.total [] st.2 (fun _ h => hsub.subset h) hrm).weaken (fun _ h => h)
            (fun _ s' h => h.shrink fun a ha => by rw [h1]; exact ha) (fun _ _ h => h)) s h3
      dsimp only
      refine Py.Post.bind (post_recordAll (hE _) _ _) fun h' => ?_
      by_cases hh : Recorded cfg.arms h' ∧ h'.total = (addSamples (st.2.length * cfg.unitsPerRound) st.1).total
      swap
      · exact fun s hs => absurd hs.2 hh
      obtain ⟨hh, htot⟩ := hh
      obtain ⟨next, hn1, hn2⟩ := eliminate_sublist (h := st.2.foldl (fun h a => setLastSample cfg.unitsPerRound a h) h') (cands := st.2)
        (by intro e; simp [e] at hlen) (recorded_foldl _ _ _ _ fun a ha => hh a (hsub.subset ha))
      refine Py.Post.bind (Q := fun next s => ReadyB ops New Old (st.1.total + st.2.length * cfg.unitsPerRound) cfg.arms cfg.arms s ∧ next.Sublist st.2)
        (Py.Post.lift hn1 fun s hs => ⟨hs.1, hn2⟩) fun nx => ?_
      split
      · exact Py.Post.pure fun _ _ => trivial
      · refine Py.Post.pure fun s hs => ⟨hs.2.trans hsub, Or.inl ?_⟩
        rw [foldl_setLast_total, htot]
        exact hs.1

theorem postB_lucbRun (hr : ReliableOn all ops cfg New Old G) (h2 : 2 ≤ cfg.arms.length) {l : α} (hL : cfg.sampleLimit = some (.fin l)) (hl : 0 ≤ l)
    (hroom : Room cfg l all) (fuel : Nat) :
    Py.Post (ReadyB (W := W) ops New Old 0 cfg.arms []) (lucbRun env ops cfg (some all) fuel) (fun _ _ => True)
      (fun e s => e = .valueError ∧ AllTie ops cfg.arms s.1) := by
  unfold lucbRun lucbFirst
  have hrm0 := hroom 0 (by simpa using hl)
  obtain ⟨d, e1, hd⟩ := hr.batch 0 (by
    refine le_trans (Nat.add_le_add_left ?_ _) hrm0
    exact Nat.le_mul_of_pos_left _ (by omega))
  rw [Nat.zero_add] at e1
  refine Py.Post.bind (Q := fun d' s => d' = d ∧ ReadyB ops New Old 0 cfg.arms [] s) (Py.Post.lift e1 fun s hs => ⟨rfl, hs⟩) fun d' => ?_
  by_cases hdd : d' = d
  swap
  · exact fun s hs => absurd hs.1 hdd
  subst hdd
  refine Py.Post.bind ((postB_updateRecordAll hr 0 d' hd _).weaken (fun s hs => hs.2) (fun _ _ h => h) (fun _ _ h => h)) fun h' => ?_
  by_cases htot : h'.total = 0
  swap
  · exact fun s hs => absurd hs.2.2 htot
  have hE := hasEstimates_upto hr.estimates
  refine Py.Post.weaken (Py.Post.loop (fun h s => ReadyB ops New Old h.total cfg.arms cfg.arms s) (fun _ => True)
    (fun _ _ _ => trivial) (fun h => ?_) fuel _) (fun s hs => by simp only [addSamples, htot]; exact hs.1) (fun _ _ h => h) (fun _ _ h => h)
  unfold lucbRound
  refine Py.Post.bind (Q := fun over s => over = decide (l < (h.total : α)) ∧ ReadyB ops New Old h.total cfg.arms cfg.arms s)
    (Py.Post.lift (by simp only [overLimit, hL]; rfl) fun s hs => ⟨rfl, hs⟩) fun over => ?_
  by_cases hover : over = decide (l < (h.total : α))
  swap
  · exact fun s hs => absurd hs.1 hover
  split
  · refine Py.Post.get_bind fun s hs => ?_
    obtain ⟨heap, w⟩ := s
    dsimp only
    obtain ⟨best, hb⟩ := lowestVarArms_ready (hE _) hs.2
    refine Py.Post.bind (Q := fun _ s => s = (heap, w)) (Py.Post.lift hb fun _ h => h) fun b => ?_
    exact Py.Post.pure fun _ _ => trivial
  · rename_i hov
    have ht : (h.total : α) ≤ l := by rw [hover] at hov; simpa using hov
    have hrm : h.total + 2 * cfg.unitsPerRound ≤ all.nUnits := le_trans (Nat.add_le_add_left (Nat.mul_le_mul_right _ h2) _) (hroom h.total ht)
    refine Py.Post.bind (Q := fun l s => ReadyB ops New Old h.total cfg.arms cfg.arms s ∧ l.length = 2 ∧ ∀ a ∈ l, a ∈ cfg.arms) ?_ fun chosen => ?_
    · intro s hs
      rcases selectArms_ready (env := env) (hE _) (by intro e; simp [e] at h2) hs.2 with ⟨-, l, w', e, hl2, hl⟩ | ⟨ht, e⟩
      · exact Or.inl ⟨l, _, e, hs.2, hl2, hl⟩
      · exact Or.inr ⟨_, _, e, rfl, ht⟩
    by_cases hc : chosen.length = 2 ∧ ∀ a ∈ chosen, a ∈ cfg.arms
    swap
    · exact fun s hs => absurd hs.2 hc
    obtain ⟨hc2, hc⟩ := hc
    refine Py.Post.bind (Q := fun _ s => ReadyB ops New Old (h.total + 2 * cfg.unitsPerRound) cfg.arms cfg.arms s)
      ((postB_pulls hr h.total cfg.arms chosen hc (by rw [hc2]; exact hrm)).weaken (fun _ h => h.1)
      (fun _ s' h => by rw [hc2] at h; exact h.shrink fun a ha => List.mem_append_left _ ha) (fun _ _ h => h)) fun _ => ?_
    refine Py.Post.bind (post_recordAll (hE _) _ _) fun h'' => ?_
    by_cases htot2 : h''.total = h.total
    swap
    · exact fun s hs => absurd hs.2.2 htot2
    dsimp only
    refine Py.Post.get_bind fun s hs => ?_
    obtain ⟨heap, w⟩ := s
    dsimp only
    obtain ⟨r, hb⟩ := checkEnd_ready (hE _) h2 hs.1
    refine Py.Post.bind (Q := fun _ s => s = (heap, w)) (Py.Post.lift hb fun _ h => h) fun b => ?_
    split
    · exact Py.Post.pure fun _ _ => trivial
    · refine Py.Post.pure fun s' hs' => ?_
      subst hs'
      simp only [Sum.elim_inl, addSamples, htot2]
      exact hs.1

end Bandit
end Verif
