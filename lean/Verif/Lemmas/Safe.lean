import Verif.Lemmas.Bandits5
import Verif.Spec.Safe

/-!
# Runs that do not raise
-/

set_option linter.unusedSectionVars false
set_option linter.unusedSimpArgs false

namespace Verif

namespace Py
variable {σ A B H R I : Type}

/-- From a state satisfying `P` the program returns as described by `Q`, or raises an exception described by `X`. -/
def Post (P : σ → Prop) (m : Py σ A) (Q : A → σ → Prop) (X : PyErr → σ → Prop) : Prop :=
  ∀ s, P s → (∃ a s', m s = (.ok a, s') ∧ Q a s') ∨ (∃ e s', m s = (.error e, s') ∧ X e s')

variable {P : σ → Prop} {X : PyErr → σ → Prop}

theorem Post.bind {m : Py σ A} {f : A → Py σ B} {Q : A → σ → Prop} {Q' : B → σ → Prop} (hm : Post P m Q X) (hf : ∀ a, Post (Q a) (f a) Q' X) :
    Post P (m >>= f) Q' X := by
  intro s hs
  rcases hm s hs with ⟨a, s', h1, h2⟩ | ⟨e, s', h1, h2⟩
  · rw [bind_ok h1]
    exact hf a s' h2
  · rw [bind_error h1]
    exact Or.inr ⟨e, s', rfl, h2⟩

theorem Post.pure {a : A} {Q : A → σ → Prop} (h : ∀ s, P s → Q a s) : Post P (Pure.pure a) Q X :=
  fun s hs => Or.inl ⟨a, s, rfl, h s hs⟩

theorem Post.get_bind {f : σ → Py σ B} {Q : B → σ → Prop} (hf : ∀ s, P s → Post (fun s' => s' = s) (f s) Q X) : Post P (get >>= f) Q X :=
  fun s hs => hf s hs s rfl

theorem Post.lift {x : Except PyErr A} {a : A} (hx : x = .ok a) {Q : A → σ → Prop} (h : ∀ s, P s → Q a s) : Post P (Py.lift x) Q X := by
  subst hx
  exact fun s hs => Or.inl ⟨a, s, rfl, h s hs⟩

theorem Post.weaken {P' : σ → Prop} {m : Py σ A} {Q Q' : A → σ → Prop} {X' : PyErr → σ → Prop} (h : Post P m Q X) (hp : ∀ s, P' s → P s)
    (hq : ∀ a s, Q a s → Q' a s) (hx : ∀ e s, X e s → X' e s) : Post P' m Q' X' := by
  intro s hs
  rcases h s (hp s hs) with ⟨a, s', h1, h2⟩ | ⟨e, s', h1, h2⟩
  · exact Or.inl ⟨a, s', h1, hq a s' h2⟩
  · exact Or.inr ⟨e, s', h1, hx e s' h2⟩

theorem Post.forEach {f : I → H → Py σ H} (J : List I → H → σ → Prop) (l : List I)
    (hf : ∀ pre a post h, l = pre ++ a :: post → Post (J pre h) (f a h) (fun h' => J (pre ++ [a]) h') X) (h : H) :
    Post (J [] h) (Py.forEach f l h) (fun h' => J l h') X := by
  suffices H : ∀ pre post h, l = pre ++ post → Post (J pre h) (Py.forEach f post h) (fun h' => J l h') X from H [] l h rfl
  intro pre post
  induction post generalizing pre with
  | nil =>
    intro h hl
    rw [List.append_nil] at hl
    subst hl
    exact Post.pure fun s hs => hs
  | cons a post ih =>
    intro h hl
    exact Post.bind (hf pre a post h hl) fun h' => ih (pre ++ [a]) h' (by simpa using hl)

theorem Post.loop {body : H → Py σ (H ⊕ R)} (J : H → σ → Prop) (K : σ → Prop) (hJK : ∀ h s, J h s → K s)
    (hb : ∀ h, Post (J h) (body h) (fun x s => Sum.elim (fun h' => J h' s) (fun _ => K s) x) X) (n : Nat) (h : H) :
    Post (J h) (Py.loop body n h) (fun _ s => K s) X := by
  induction n generalizing h with
  | zero => exact Post.pure fun s hs => hJK h s hs
  | succ n ih =>
    unfold Py.loop
    refine Post.bind (hb h) fun x => ?_
    cases x with
    | inl h' => exact ih h'
    | inr r => exact Post.pure fun s hs => hs

/-- nothing is raised -/
theorem Post.returns {m : Py σ A} {Q : A → σ → Prop} (h : Post P m Q fun _ _ => False) {s : σ} (hs : P s) : ∃ a s', m s = (.ok a, s') ∧ Q a s' := by
  rcases h s hs with h | ⟨_, _, _, h⟩
  · exact h
  · exact h.elim

end Py

namespace Bandit
variable {I S W β α : Type} [Field α] [LinearOrder α] [DecidableEq I]
variable {env : BanditEnv W β} {ops : ArmOps S W β α} {cfg : BanditCfg I α} {New Old : I → S → Prop} {G : ExpData β → Prop}
variable {X : PyErr → (I → S) × W → Prop}

/-- all arms have been made properly, and those in `l` have been updated -/
def Ready (New Old : I → S → Prop) (arms l : List I) (s : (I → S) × W) : Prop :=
  ∀ a ∈ arms, (New a (s.1 a) ∨ Old a (s.1 a)) ∧ (a ∈ l → Old a (s.1 a))

/-- the last entries of the histories of the arms in `l` are there and not NaN -/
def Recorded (l : List I) (h : Hist I α) : Prop :=
  ∀ a ∈ l, (∃ x, (h.lcb a).getLast? = some x ∧ x ≠ .nan) ∧ (∃ x, (h.ucb a).getLast? = some x ∧ x ≠ .nan) ∧ ∃ x, (h.var a).getLast? = some x ∧ x ≠ .nan

theorem Ready.all {arms l : List I} {s : (I → S) × W} (h : Ready New Old arms l s) (hl : ∀ a ∈ arms, a ∈ l) : Ready New Old arms arms s :=
  fun a ha => ⟨(h a ha).1, fun _ => (h a ha).2 (hl a ha)⟩

theorem Ready.shrink {arms l l' : List I} {s : (I → S) × W} (h : Ready New Old arms l s) (hl : ∀ a ∈ l', a ∈ l) : Ready New Old arms l' s :=
  fun a ha => ⟨(h a ha).1, fun hm => (h a ha).2 (hl a hm)⟩

theorem post_generate (hr : Reliable env ops cfg New Old G) (arms l : List I) :
    Py.Post (Ready (W := W) New Old arms l) (generate env cfg.unitsPerRound) (fun d s => Ready New Old arms l s ∧ G d) X := by
  rintro ⟨heap, w⟩ hs
  obtain ⟨d, w', h1, h2⟩ := hr.generate w
  refine Or.inl ⟨d, (heap, w'), ?_, hs, h2⟩
  simp [generate, h1]

theorem post_updateArm (hr : Reliable env ops cfg New Old G) (l : List I) (a : I) (ha : a ∈ cfg.arms) (d : ExpData β) (hd : G d) :
    Py.Post (Ready (W := W) New Old cfg.arms l) (updateArm ops a d (level cfg)) (fun _ => Ready New Old cfg.arms (l ++ [a])) X := by
  rintro ⟨heap, w⟩ hs
  obtain ⟨r, s', w', h1, h2⟩ := hr.update a ha d (heap a) w hd (hs a ha).1
  refine Or.inl ⟨(), (Function.update heap a s', w'), ?_, ?_⟩
  · simp [updateArm, h1, Except.map]
  · intro b hb
    by_cases hab : b = a
    · subst hab
      simp only [Function.update_self]
      exact ⟨.inr h2, fun _ => h2⟩
    · simp only [Function.update_of_ne hab]
      refine ⟨(hs b hb).1, fun hm => (hs b hb).2 ?_⟩
      rcases List.mem_append.1 hm with hm | hm
      · exact hm
      · exact absurd (List.mem_singleton.1 hm) hab

theorem Recorded.snoc {l : List I} {h h' : Hist I α} {a : I} (hh : Recorded l h) {x y z : Fl α} (hx : x ≠ .nan) (hy : y ≠ .nan) (hz : z ≠ .nan)
    (h1 : h'.lcb = Function.update h.lcb a (h.lcb a ++ [x])) (h2 : h'.ucb = Function.update h.ucb a (h.ucb a ++ [y]))
    (h3 : h'.var = Function.update h.var a (h.var a ++ [z])) : Recorded (l ++ [a]) h' := by
  intro b hb
  rw [h1, h2, h3]
  by_cases hab : b = a
  · subst hab
    simp only [Function.update_self]
    exact ⟨⟨x, by simp, hx⟩, ⟨y, by simp, hy⟩, z, by simp, hz⟩
  · simp only [Function.update_of_ne hab]
    rcases List.mem_append.1 hb with hb | hb
    · exact hh b hb
    · exact absurd (List.mem_singleton.1 hb) hab

theorem vals_ready (hr : HasEstimates ops cfg.arms Old) {l : List I} {s : (I → S) × W} (hs : Ready New Old cfg.arms l s) {a : I} (ha : a ∈ cfg.arms)
    (hal : a ∈ l) : ((ops.ci (s.1 a)).1.isSome = true ∧ (ops.ci (s.1 a)).2.isSome = true ∧ (ops.varEst (s.1 a)).isSome = true) ∧
      lcbV ops s.1 a ≠ .nan ∧ ucbV ops s.1 a ≠ .nan ∧ varV ops s.1 a ≠ .nan := by
  obtain ⟨lo, u, v, h1, h2, h3, h4, h5⟩ := hr a ha _ ((hs a ha).2 hal)
  simp [lcbV, ucbV, varV, h1, h2, h3, h4, h5]

theorem post_record (hr : HasEstimates ops cfg.arms Old) (l l' : List I) (k : I → Nat) (a : I) (ha : a ∈ cfg.arms) (hal : a ∈ l) (h : Hist I α)
    (hh : Recorded l' h) :
    Py.Post (Ready (W := W) New Old cfg.arms l) (record ops k a h) (fun h' s => Ready New Old cfg.arms l s ∧ Recorded (l' ++ [a]) h' ∧ h'.total = h.total) X := by
  rintro ⟨heap, w⟩ hs
  obtain ⟨lo, u, v, h1, h2, h3, h4, h5⟩ := hr a ha (heap a) ((hs a ha).2 hal)
  have e : record ops k a h (heap, w) = (.ok { h with
      lcb := Function.update h.lcb a (h.lcb a ++ [(ops.cost (heap a)).mul lo])
      ucb := Function.update h.ucb a (h.ucb a ++ [(ops.cost (heap a)).mul u])
      var := Function.update h.var a (h.var a ++ [(ops.cost (heap a)).mul v])
      samples := Function.update h.samples a (h.samples a ++ [k a]) }, heap, w) := by
    simp [record, h1, h2, costTimes, bind, Except.bind, pure, Except.pure]
  exact Or.inl ⟨_, (heap, w), e, hs, hh.snoc h3 h4 h5 rfl rfl rfl, rfl⟩

theorem post_recordAll (hr : HasEstimates ops cfg.arms Old) (k : I → Nat) (h : Hist I α) :
    Py.Post (Ready (W := W) New Old cfg.arms cfg.arms) (Py.forEach (record ops k) cfg.arms h)
      (fun h' s => Ready New Old cfg.arms cfg.arms s ∧ Recorded cfg.arms h' ∧ h'.total = h.total) X := by
  refine (Py.Post.forEach (fun pre h' s => Ready New Old cfg.arms cfg.arms s ∧ Recorded pre h' ∧ h'.total = h.total) cfg.arms ?_ h).weaken
    (fun s hs => ⟨hs, fun a ha => by simp at ha, rfl⟩) (fun _ _ h => h) (fun _ _ h => h)
  intro pre a post h1 hl s ⟨hs, hh, ht⟩
  have ha : a ∈ cfg.arms := by rw [hl]; simp
  rcases post_record (X := X) hr cfg.arms pre k a ha ha h1 hh s hs with ⟨x, s', e1, e2, e3, e4⟩ | ⟨e, s', e1, e2⟩
  · exact Or.inl ⟨x, s', e1, e2, e3, e4.trans ht⟩
  · exact Or.inr ⟨e, s', e1, e2⟩

theorem post_updateRecordAll (hr : Reliable env ops cfg New Old G) (d : ExpData β) (hd : G d) (h : Hist I α) :
    Py.Post (Ready (W := W) New Old cfg.arms []) (Py.forEach (updateRecord ops cfg d) cfg.arms h)
      (fun h' s => Ready New Old cfg.arms cfg.arms s ∧ Recorded cfg.arms h' ∧ h'.total = h.total) X := by
  refine (Py.Post.forEach (fun pre h' s => Ready New Old cfg.arms pre s ∧ Recorded pre h' ∧ h'.total = h.total) cfg.arms ?_ h).weaken
    (fun s hs => ⟨hs, fun a ha => by simp at ha, rfl⟩) (fun _ _ h => h) (fun _ _ h => h)
  intro pre a post h1 hl s ⟨hs, hh, ht⟩
  have ha : a ∈ cfg.arms := by rw [hl]; simp
  have := Py.Post.bind (post_updateArm (X := X) hr pre a ha d hd) fun _ => post_record (X := X) hr.estimates (pre ++ [a]) pre (fun _ => cfg.unitsPerRound) a ha (by simp) h1 hh
  rcases this s hs with ⟨x, s', e1, e2, e3, e4⟩ | ⟨e, s', e1, e2⟩
  · exact Or.inl ⟨x, s', e1, e2, e3, e4.trans ht⟩
  · exact Or.inr ⟨e, s', e1, e2⟩

theorem collectBounds_ready (hr : HasEstimates ops cfg.arms Old) {s : (I → S) × W} (hs : Ready New Old cfg.arms cfg.arms s) :
    collectBounds ops cfg.arms s.1 = .ok (cfg.arms.map (lcbV ops s.1), cfg.arms.map (ucbV ops s.1), cfg.arms.map (varV ops s.1)) :=
  collectBounds_of fun _ ha => (vals_ready hr hs ha ha).1

theorem lowestVarArms_ready (hr : HasEstimates ops cfg.arms Old) {s : (I → S) × W} (hs : Ready New Old cfg.arms cfg.arms s) :
    ∃ best, lowestVarArms ops cfg s.1 = .ok best := by
  unfold lowestVarArms
  rw [collectBounds_ready hr hs]
  simp only [bind, Except.bind, pure, Except.pure]
  generalize cfg.arms.map (varV ops s.1) = vs
  cases vs with
  | nil => exact ⟨_, rfl⟩
  | cons v vs =>
    obtain ⟨m, hm⟩ := Fl.pyMin_exists (l := v :: vs) (by simp)
    simp only [minMask, hm, bind, Except.bind, pure, Except.pure]
    exact ⟨_, rfl⟩

theorem endCondition_ready (arms : List I) (tol : Fl α) (ls us vs : List (Fl α)) (h2 : 2 ≤ arms.length) (hl : ls.length = arms.length) (hu : us.length = arms.length)
    (hv : vs.length = arms.length) : ∃ r, endCondition arms tol ls us vs = .ok r := by
  unfold endCondition
  split
  · exact ⟨_, rfl⟩
  · obtain ⟨m, hm⟩ := Fl.pyMin_exists (l := vs) (by rintro rfl; simp at hv; omega)
    simp only [hm, bind, Except.bind]
    split
    · exact ⟨_, rfl⟩
    · cases vs with
      | nil => simp at hv; omega
      | cons v vs =>
        have ha : Fl.argmin (v :: vs) = .ok (Fl.argminAux vs 1 v 0) := rfl
        obtain ⟨x, hx, -⟩ := Fl.argmin_spec ha
        simp only [ha]
        generalize Fl.argminAux vs 1 v 0 = i at hx
        obtain ⟨hi, -⟩ := List.getElem?_eq_some_iff.1 hx
        rw [hv] at hi
        obtain ⟨y, hy⟩ : ∃ y, us[i]? = some y := ⟨us[i], List.getElem?_eq_getElem (hu ▸ hi)⟩
        obtain ⟨b, hb⟩ : ∃ b, arms[i]? = some b := ⟨arms[i], List.getElem?_eq_getElem hi⟩
        obtain ⟨q, hq⟩ := Fl.pyMin_exists (l := ls.eraseIdx i) (by
          intro h
          have := congrArg List.length h
          rw [List.length_eraseIdx, hl] at this
          simp [hi] at this
          omega)
        simp only [at?, hy, hq, hb]
        exact ⟨_, rfl⟩

theorem checkEnd_ready (hr : HasEstimates ops cfg.arms Old) (h2 : 2 ≤ cfg.arms.length) {s : (I → S) × W} (hs : Ready New Old cfg.arms cfg.arms s) :
    ∃ r, checkEnd ops cfg s.1 = .ok r := by
  unfold checkEnd
  rw [collectBounds_ready hr hs]
  exact endCondition_ready _ _ _ _ _ h2 (by simp) (by simp) (by simp)

theorem post_uniformRun (hr : Reliable env ops cfg New Old G) (h2 : 2 ≤ cfg.arms.length) {L : Fl α} (hL : cfg.sampleLimit = some L) (fuel : Nat) :
    Py.Post (Ready (W := W) New Old cfg.arms []) (uniformRun env ops cfg none fuel) (fun _ => Ready New Old cfg.arms []) X := by
  unfold uniformRun
  refine Py.Post.loop (fun _ s => Ready New Old cfg.arms [] s) (Ready New Old cfg.arms []) (fun _ _ h => h) (fun h => ?_) fuel _
  unfold uniformRound uniformSamples
  refine Py.Post.bind (post_generate hr cfg.arms []) fun d => ?_
  by_cases hd : G d
  swap
  · exact fun s hs => absurd hs.2 hd
  refine Py.Post.weaken (P := Ready New Old cfg.arms []) ?_ (fun s hs => hs.1) (fun _ _ h => h) (fun _ _ h => h)
  refine Py.Post.bind (post_updateRecordAll hr d hd h) fun h' => ?_
  dsimp only
  refine Py.Post.bind (Q := fun _ s => Ready New Old cfg.arms cfg.arms s) (Py.Post.lift (by simp only [overLimit, hL]; rfl) fun s hs => hs.1) fun over => ?_
  refine Py.Post.get_bind fun s hs => ?_
  obtain ⟨heap, w⟩ := s
  dsimp only
  split
  · obtain ⟨best, hb⟩ := lowestVarArms_ready hr.estimates hs
    refine Py.Post.bind (Q := fun _ s => s = (heap, w)) (Py.Post.lift hb fun _ h => h) fun b => ?_
    exact Py.Post.pure fun _ h => h ▸ hs.shrink fun a ha => by simp at ha
  · obtain ⟨r, hb⟩ := checkEnd_ready hr.estimates h2 hs
    refine Py.Post.bind (Q := fun _ s => s = (heap, w)) (Py.Post.lift hb fun _ h => h) fun b => ?_
    split
    · exact Py.Post.pure fun _ h => h ▸ hs.shrink fun a ha => by simp at ha
    · refine Py.Post.pure fun s' hs' => ?_
      subst hs'
      exact hs.shrink fun a ha => by simp at ha

theorem post_pulls (hr : Reliable env ops cfg New Old G) (l0 l : List I) (hl : ∀ a ∈ l, a ∈ cfg.arms) :
    Py.Post (Ready (W := W) New Old cfg.arms l0) (Py.forEach (pull env ops cfg none) l ()) (fun _ => Ready New Old cfg.arms (l0 ++ l)) X := by
  refine (Py.Post.forEach (fun pre _ s => Ready New Old cfg.arms (l0 ++ pre) s) l ?_ ()).weaken (fun s hs => by simpa using hs) (fun _ _ h => h) (fun _ _ h => h)
  intro pre a post _ e
  have ha : a ∈ cfg.arms := hl a (by rw [e]; simp)
  unfold pull samplesFor
  refine Py.Post.bind (post_generate hr cfg.arms (l0 ++ pre)) fun d => ?_
  by_cases hd : G d
  swap
  · exact fun s hs => absurd hs.2 hd
  refine (post_updateArm hr (l0 ++ pre) a ha d hd).weaken (fun s hs => hs.1) (fun _ s hs => ?_) (fun _ _ h => h)
  rwa [List.append_assoc] at hs

theorem mapM_last (f : I → List (Fl α)) (l : List I) (h : ∀ a ∈ l, ∃ x, (f a).getLast? = some x ∧ x ≠ .nan) :
    ∃ g : I → Fl α, l.mapM (fun a => lastOf (f a)) = .ok (l.map g) ∧ ∀ a ∈ l, g a ≠ .nan := by
  refine ⟨fun a => (f a).getLast?.getD .nan, mapM_ok_of _ _ _ fun a ha => ?_, fun a ha => ?_⟩
  · obtain ⟨x, hx, -⟩ := h a ha
    simp [lastOf, hx]
  · obtain ⟨x, hx, hn⟩ := h a ha
    simpa [hx] using hn

/-- With NaN-free histories the elimination step succeeds; it keeps candidates only. -/
theorem eliminate_sublist {h : Hist I α} {cands : List I} (hc : cands ≠ []) (hh : Recorded cands h) :
    ∃ next, eliminate h cands = .ok next ∧ next.Sublist cands := by
  obtain ⟨v, hv, hvn⟩ := mapM_last h.var cands fun a ha => (hh a ha).2.2
  obtain ⟨lo, hlo, hlon⟩ := mapM_last h.lcb cands fun a ha => (hh a ha).1
  obtain ⟨m, hm⟩ := Fl.pyMin_exists (l := cands.map v) (by simpa using hc)
  obtain ⟨a, ha, rfl⟩ := List.mem_map.1 (Fl.pyMin_mem hm)
  have hf : ExpData.filterMask ((cands.map v).map (·.eq (v a))) cands = cands.filter fun b => (v b).eq (v a) := by
    rw [List.map_map]
    exact ExpData.filterMask_eq_filter _ _
  have hmem : a ∈ cands.filter fun b => (v b).eq (v a) := List.mem_filter.2 ⟨ha, (Fl.eq_iff _ _).2 ⟨rfl, hvn a ha⟩⟩
  obtain ⟨u, hu, -⟩ := mapM_last h.ucb (cands.filter fun b => (v b).eq (v a)) fun b hb => (hh b (List.mem_of_mem_filter hb)).2.1
  obtain ⟨q, hq⟩ := Fl.pyMin_exists (l := (cands.filter fun b => (v b).eq (v a)).map u) (by
    intro e
    rw [List.map_eq_nil_iff] at e
    rw [e] at hmem
    simp at hmem)
  refine ⟨ExpData.filterMask ((cands.map lo).map (·.lt q)) cands, ?_, ExpData.filterMask_sublist _ _⟩
  simp only [eliminate, hv, hm, hf, hu, hq, hlo, bind, Except.bind, pure, Except.pure]

theorem eliminate_ready {h : Hist I α} {cands : List I} (hc : cands ≠ []) (hh : Recorded cands h) :
    ∃ next, eliminate h cands = .ok next ∧ ∀ a ∈ next, a ∈ cands := by
  obtain ⟨next, h1, h2⟩ := eliminate_sublist hc hh
  exact ⟨next, h1, fun a ha => h2.subset ha⟩

theorem recorded_foldl (n : Nat) (l l' : List I) (h : Hist I α) (hh : Recorded l h) : Recorded l (l'.foldl (fun h a => setLastSample n a h) h) := by
  induction l' generalizing h with
  | nil => exact hh
  | cons a l' ih => exact ih _ hh

theorem post_seRun (hr : Reliable env ops cfg New Old G) {L : Fl α} (hL : cfg.sampleLimit = some L) (hL0 : L.lt (.fin 0) = false) (fuel : Nat) :
    Py.Post (Ready (W := W) New Old cfg.arms []) (seRun env ops cfg none fuel) (fun _ => Ready New Old cfg.arms []) X := by
  unfold seRun
  refine Py.Post.weaken (Py.Post.loop (fun (st : Hist I α × List I) (s : (I → S) × W) => (∀ a ∈ st.2, a ∈ cfg.arms) ∧
    (Ready New Old cfg.arms cfg.arms s ∨ (st.2 = cfg.arms ∧ st.1.total = 0 ∧ Ready New Old cfg.arms [] s))) (Ready New Old cfg.arms [])
    (fun _ s h => h.2.elim (fun h => h.shrink fun a ha => by simp at ha) fun h => h.2.2) (fun st => ?_) fuel _)
    (fun s hs => ⟨fun _ h => h, Or.inr ⟨rfl, rfl, hs⟩⟩) (fun _ _ h => h) (fun _ _ h => h)
  by_cases hsub : ∀ a ∈ st.2, a ∈ cfg.arms
  swap
  · exact fun s hs => absurd hs.1 hsub
  unfold seRound
  split
  · exact Py.Post.pure fun s h => h.2.elim (fun h => h.shrink fun a ha => by simp at ha) fun h => h.2.2
  · rename_i hlen
    refine Py.Post.bind (Q := fun over s => (over = true → Ready New Old cfg.arms cfg.arms s) ∧
      (Ready New Old cfg.arms cfg.arms s ∨ (st.2 = cfg.arms ∧ Ready New Old cfg.arms [] s)))
      (Py.Post.lift (a := L.lt (.fin (st.1.total : α))) (by simp [overLimit, hL]) fun s hs => ?_) fun over => ?_
    · rcases hs.2 with h | ⟨h1, h2, h3⟩
      · exact ⟨fun _ => h, Or.inl h⟩
      · refine ⟨fun h => ?_, Or.inr ⟨h1, h3⟩⟩
        rw [h2, Nat.cast_zero, hL0] at h
        simp at h
    split
    · rename_i hov
      refine Py.Post.get_bind fun s hs => ?_
      obtain ⟨heap, w⟩ := s
      dsimp only
      obtain ⟨best, hb⟩ := lowestVarArms_ready hr.estimates (hs.1 hov)
      refine Py.Post.bind (Q := fun _ s => s = (heap, w)) (Py.Post.lift hb fun _ h => h) fun b => ?_
      exact Py.Post.pure fun _ h => h ▸ (hs.1 hov).shrink fun a ha => by simp at ha
    · refine Py.Post.bind (Q := fun _ s => Ready New Old cfg.arms cfg.arms s) ?_ fun _ => ?_
      · intro s hs
        rcases hs.2 with h | ⟨h1, h3⟩
        · exact ((post_pulls hr cfg.arms st.2 hsub).weaken (fun _ h => h) (fun _ s' h => h.shrink fun a ha => List.mem_append_left _ ha) (fun _ _ h => h)) s h
        · exact ((post_pulls hr [] st.2 hsub).weaken (fun _ h => h) (fun _ s' h => h.shrink fun a ha => by rw [h1]; exact ha) (fun _ _ h => h)) s h3
      dsimp only
      refine Py.Post.bind (post_recordAll hr.estimates _ _) fun h' => ?_
      by_cases hh : Recorded cfg.arms h'
      swap
      · exact fun s hs => absurd hs.2.1 hh
      obtain ⟨next, hn1, hn2⟩ := eliminate_ready (h := st.2.foldl (fun h a => setLastSample cfg.unitsPerRound a h) h') (cands := st.2)
        (by intro e; simp [e] at hlen) (recorded_foldl _ _ _ _ fun a ha => hh a (hsub a ha))
      refine Py.Post.bind (Q := fun next s => Ready New Old cfg.arms cfg.arms s ∧ ∀ a ∈ next, a ∈ st.2) (Py.Post.lift hn1 fun s hs => ⟨hs.1, hn2⟩) fun nx => ?_
      split
      · exact Py.Post.pure fun s hs => hs.1.shrink fun a ha => by simp at ha
      · exact Py.Post.pure fun s hs => ⟨fun a ha => hsub a (hs.2 a ha), Or.inl hs.1⟩

theorem chooseMasked_post (env : BanditEnv W β) (arms : List I) (p : I → Bool) {a : I} (ha : a ∈ arms) (hp : p a = true) (s : (I → S) × W) :
    ∃ b w', chooseMasked env arms (arms.map p) s = (.ok b, s.1, w') ∧ b ∈ arms := by
  obtain ⟨heap, w⟩ := s
  have hm : a ∈ selectMask arms (arms.map p) := by
    unfold selectMask
    rw [ExpData.filterMask_eq_filter]
    exact List.mem_filter.2 ⟨ha, hp⟩
  have h0 : 0 < (selectMask arms (arms.map p)).length := List.length_pos_of_mem hm
  exact ⟨_, _, by simp only [chooseMasked, h0, ↓reduceDIte]; rfl, selectMask_get_mem _ _ _⟩

/-- `select_arms` picks two arms, or all cost-adjusted estimates are equal and it raises `ValueError`. -/
theorem selectArms_ready (hr : HasEstimates ops cfg.arms Old) (h1 : cfg.arms ≠ []) {s : (I → S) × W} (hs : Ready New Old cfg.arms cfg.arms s) :
    (¬ AllTie ops cfg.arms s.1 ∧ ∃ l w', selectArms env ops cfg s = (.ok l, s.1, w') ∧ l.length = 2 ∧ ∀ a ∈ l, a ∈ cfg.arms) ∨
    (AllTie ops cfg.arms s.1 ∧ selectArms env ops cfg s = (.error .valueError, s)) := by
  obtain ⟨heap, w⟩ := s
  have hv : ∀ a ∈ cfg.arms, lcbV ops heap a ≠ .nan ∧ ucbV ops heap a ≠ .nan ∧ varV ops heap a ≠ .nan := fun a ha => (vals_ready hr hs ha ha).2
  have htie : AllTie ops cfg.arms heap ↔ ∀ a ∈ cfg.arms, ∀ b ∈ cfg.arms, varV ops heap a = varV ops heap b := by
    constructor
    · intro h a ha b hb
      exact congrArg (fun o : Option (Fl α) => o.getD .nan) (h a ha b hb)
    · intro h a ha b hb
      have e := h a ha b hb
      obtain ⟨x, hx⟩ := Option.isSome_iff_exists.1 (vals_ready hr hs ha ha).1.2.2
      obtain ⟨y, hy⟩ := Option.isSome_iff_exists.1 (vals_ready hr hs hb hb).1.2.2
      dsimp only at hx hy
      simp only [varV, hx, hy, Option.map_some, Option.getD_some] at e ⊢
      rw [e]
  obtain ⟨m, hm⟩ := Fl.pyMin_exists (l := cfg.arms.map (varV ops heap)) (by simpa using h1)
  obtain ⟨a, ha, rfl⟩ := List.mem_map.1 (Fl.pyMin_mem hm)
  have hnan : (varV ops heap a).isNan = false := by
    have := (hv a ha).2.2
    cases h : varV ops heap a <;> simp_all [Fl.isNan]
  have f1 : ExpData.filterMask ((cfg.arms.map (varV ops heap)).map (·.eq (varV ops heap a))) (cfg.arms.map (ucbV ops heap)) =
      (cfg.arms.filter fun b => (varV ops heap b).eq (varV ops heap a)).map (ucbV ops heap) := by
    rw [ExpData.filterMask_map, List.map_map]
    exact congrArg _ (ExpData.filterMask_eq_filter _ _)
  have f2 : ExpData.filterMask (((cfg.arms.map (varV ops heap)).map (·.eq (varV ops heap a))).map (!·)) (cfg.arms.map (lcbV ops heap)) =
      (cfg.arms.filter fun b => !(varV ops heap b).eq (varV ops heap a)).map (lcbV ops heap) := by
    rw [ExpData.filterMask_map, List.map_map, List.map_map]
    exact congrArg _ (ExpData.filterMask_eq_filter _ _)
  have hmem : a ∈ cfg.arms.filter fun b => (varV ops heap b).eq (varV ops heap a) := List.mem_filter.2 ⟨ha, (Fl.eq_iff _ _).2 ⟨rfl, (hv a ha).2.2⟩⟩
  obtain ⟨u, hu⟩ : ∃ u, Fl.pyMax ((cfg.arms.filter fun b => (varV ops heap b).eq (varV ops heap a)).map (ucbV ops heap)) = .ok u := by
    cases hc : (cfg.arms.filter fun b => (varV ops heap b).eq (varV ops heap a)) with
    | nil => rw [hc] at hmem; simp at hmem
    | cons b l => exact ⟨_, rfl⟩
  have start : ∀ r, (∀ lo, Fl.pyMin ((cfg.arms.filter fun b => !(varV ops heap b).eq (varV ops heap a)).map (lcbV ops heap)) = lo →
      (do
        let lowLcb ← Py.lift lo
        let u ← chooseMasked env cfg.arms ((cfg.arms.map (ucbV ops heap)).map (·.eq u))
        let l ← chooseMasked env cfg.arms ((cfg.arms.map (lcbV ops heap)).map (·.eq lowLcb))
        return [u, l] : Py ((I → S) × W) (List I)) (heap, w) = r) → selectArms env ops cfg (heap, w) = r := by
    intro r h
    rw [← h _ rfl]
    unfold selectArms
    simp only [Py.bind_apply, Py.get_apply, Py.lift_apply, collectBounds_ready hr hs, hm, hnan, f1, f2, hu]
    rfl
  by_cases ht : ∀ b ∈ cfg.arms, varV ops heap b = varV ops heap a
  · refine Or.inr ⟨htie.2 fun b hb c hc => (ht b hb).trans (ht c hc).symm, start _ fun lo hlo => ?_⟩
    have : (cfg.arms.filter fun b => !(varV ops heap b).eq (varV ops heap a)) = [] := by
      rw [List.filter_eq_nil_iff]
      intro b hb
      rw [ht b hb, (Fl.eq_iff _ _).2 ⟨rfl, (hv a ha).2.2⟩]
      simp
    rw [this] at hlo
    rw [← hlo]
    rfl
  · refine Or.inl ⟨fun h => ht fun b hb => htie.1 h b hb a ha, ?_⟩
    push Not at ht
    obtain ⟨b, hb, hne⟩ := ht
    have hbm : b ∈ cfg.arms.filter fun b => !(varV ops heap b).eq (varV ops heap a) := by
      refine List.mem_filter.2 ⟨hb, ?_⟩
      have : (varV ops heap b).eq (varV ops heap a) ≠ true := fun h => hne ((Fl.eq_iff _ _).1 h).1
      simpa using this
    obtain ⟨lo, hlo⟩ := Fl.pyMin_exists (l := (cfg.arms.filter fun b => !(varV ops heap b).eq (varV ops heap a)).map (lcbV ops heap)) (by
      intro e
      rw [List.map_eq_nil_iff] at e
      rw [e] at hbm
      simp at hbm)
    obtain ⟨cu, hcu, rfl⟩ := List.mem_map.1 (Fl.pyMax_mem hu)
    obtain ⟨cl, hcl, rfl⟩ := List.mem_map.1 (Fl.pyMin_mem hlo)
    have hcu := List.mem_of_mem_filter hcu
    have hcl := List.mem_of_mem_filter hcl
    obtain ⟨x, w1, e1, hx⟩ := chooseMasked_post env cfg.arms (fun c => (ucbV ops heap c).eq (ucbV ops heap cu)) hcu ((Fl.eq_iff _ _).2 ⟨rfl, (hv cu hcu).2.1⟩) (heap, w)
    obtain ⟨y, w2, e2, hy⟩ := chooseMasked_post env cfg.arms (fun c => (lcbV ops heap c).eq (lcbV ops heap cl)) hcl ((Fl.eq_iff _ _).2 ⟨rfl, (hv cl hcl).1⟩) (heap, w1)
    refine ⟨[x, y], w2, start _ fun lo' hlo' => ?_, rfl, by simp [hx, hy]⟩
    rw [hlo] at hlo'
    subst hlo'
    simp only [Py.bind_apply, Py.lift_apply, List.map_map]
    rw [show ((fun x => x.eq (ucbV ops heap cu)) ∘ ucbV ops heap) = (fun c => (ucbV ops heap c).eq (ucbV ops heap cu)) from rfl, e1]
    dsimp only
    rw [show ((fun x => x.eq (lcbV ops heap cl)) ∘ lcbV ops heap) = (fun c => (lcbV ops heap c).eq (lcbV ops heap cl)) from rfl, e2]
    rfl

theorem post_lucbRun (hr : Reliable env ops cfg New Old G) (h2 : 2 ≤ cfg.arms.length) {L : Fl α} (hL : cfg.sampleLimit = some L) (fuel : Nat) :
    Py.Post (Ready (W := W) New Old cfg.arms []) (lucbRun env ops cfg none fuel) (fun _ => Ready New Old cfg.arms [])
      (fun e s => e = .valueError ∧ Ready New Old cfg.arms cfg.arms s ∧ AllTie ops cfg.arms s.1) := by
  unfold lucbRun lucbFirst
  refine Py.Post.bind (post_generate hr cfg.arms []) fun d => ?_
  by_cases hd : G d
  swap
  · exact fun s hs => absurd hs.2 hd
  refine Py.Post.bind ((post_updateRecordAll hr d hd _).weaken (fun s hs => hs.1) (fun _ _ h => h) (fun _ _ h => h)) fun h' => ?_
  refine Py.Post.weaken (Py.Post.loop (fun _ s => Ready New Old cfg.arms cfg.arms s) (Ready New Old cfg.arms [])
    (fun _ s h => h.shrink fun a ha => by simp at ha) (fun h => ?_) fuel _) (fun s hs => hs.1) (fun _ _ h => h) (fun _ _ h => h)
  unfold lucbRound
  refine Py.Post.bind (Q := fun _ s => Ready New Old cfg.arms cfg.arms s) (Py.Post.lift (by simp only [overLimit, hL]; rfl) fun s hs => hs) fun over => ?_
  split
  · refine Py.Post.get_bind fun s hs => ?_
    obtain ⟨heap, w⟩ := s
    dsimp only
    obtain ⟨best, hb⟩ := lowestVarArms_ready hr.estimates hs
    refine Py.Post.bind (Q := fun _ s => s = (heap, w)) (Py.Post.lift hb fun _ h => h) fun b => ?_
    exact Py.Post.pure fun _ h => h ▸ hs.shrink fun a ha => by simp at ha
  · refine Py.Post.bind (Q := fun l s => Ready New Old cfg.arms cfg.arms s ∧ ∀ a ∈ l, a ∈ cfg.arms) ?_ fun chosen => ?_
    · intro s hs
      rcases selectArms_ready (env := env) hr.estimates (by intro e; simp [e] at h2) hs with ⟨-, l, w', e, -, hl⟩ | ⟨ht, e⟩
      · exact Or.inl ⟨l, _, e, hs, hl⟩
      · exact Or.inr ⟨_, _, e, rfl, hs, ht⟩
    by_cases hc : ∀ a ∈ chosen, a ∈ cfg.arms
    swap
    · exact fun s hs => absurd hs.2 hc
    refine Py.Post.bind (Q := fun _ s => Ready New Old cfg.arms cfg.arms s) ((post_pulls hr cfg.arms chosen hc).weaken (fun _ h => h.1)
      (fun _ s' h => h.shrink fun a ha => List.mem_append_left _ ha) (fun _ _ h => h)) fun _ => ?_
    refine Py.Post.bind (post_recordAll hr.estimates _ _) fun h' => ?_
    dsimp only
    refine Py.Post.get_bind fun s hs => ?_
    obtain ⟨heap, w⟩ := s
    dsimp only
    obtain ⟨r, hb⟩ := checkEnd_ready hr.estimates h2 hs.1
    refine Py.Post.bind (Q := fun _ s => s = (heap, w)) (Py.Post.lift hb fun _ h => h) fun b => ?_
    split
    · exact Py.Post.pure fun _ h => h ▸ hs.1.shrink fun a ha => by simp at ha
    · refine Py.Post.pure fun s' hs' => ?_
      subst hs'
      exact hs.1

end Bandit
end Verif
