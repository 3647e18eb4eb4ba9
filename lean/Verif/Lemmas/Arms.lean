import Verif.Spec.Arms
import Verif.Lemmas.Data
import Verif.Lemmas.Data2

/-!
# Frame lemmas for arms
-/

set_option linter.unusedSectionVars false

namespace Verif

namespace Py
variable {σ A B : Type}

/-- `m` only moves along the relation `R`. -/
def Frame (R : σ → σ → Prop) (m : Py σ A) : Prop := ∀ s, R s (m s).2

theorem Frame.bind {R : σ → σ → Prop} (htr : ∀ a b c, R a b → R b c → R a c) {m : Py σ A} {f : A → Py σ B}
    (hm : Frame R m) (hf : ∀ a, Frame R (f a)) : Frame R (m >>= f) := by
  intro s
  rw [bind_apply]
  have := hm s
  rcases h : m s with ⟨r, s'⟩
  rw [h] at this
  cases r with
  | error e => exact this
  | ok a => exact htr _ _ _ this (hf a s')

theorem Frame.pure {R : σ → σ → Prop} (h : ∀ a, R a a) (a : A) : Frame R (pure a : Py σ A) := fun s => h s
theorem Frame.raise {R : σ → σ → Prop} (h : ∀ a, R a a) (e : PyErr) : Frame R (raise e : Py σ A) := fun s => h s
theorem Frame.get {R : σ → σ → Prop} (h : ∀ a, R a a) : Frame R (get : Py σ σ) := fun s => h s
theorem Frame.lift {R : σ → σ → Prop} (h : ∀ a, R a a) (x : Except PyErr A) : Frame R (lift x : Py σ A) := fun s => h s
theorem Frame.modify {R : σ → σ → Prop} {f : σ → σ} (h : ∀ a, R a (f a)) : Frame R (modify f) := fun s => h s

/-- Two programs on related states give the same outcome and related states. -/
def Sim {τ : Type} (R : σ → τ → Prop) (m : Py σ A) (m' : Py τ A) : Prop :=
  ∀ s t, R s t → (m s).1 = (m' t).1 ∧ R (m s).2 (m' t).2

section Sim
variable {τ : Type} {R : σ → τ → Prop}

theorem Sim.bind {m : Py σ A} {m' : Py τ A} {f : A → Py σ B} {f' : A → Py τ B} (hm : Sim R m m')
    (hf : ∀ a, Sim R (f a) (f' a)) : Sim R (m >>= f) (m' >>= f') := by
  intro s t hst
  obtain ⟨h1, h2⟩ := hm s t hst
  rw [bind_apply, bind_apply]
  rcases hms : m s with ⟨r, s'⟩
  rcases hmt : m' t with ⟨r', t'⟩
  rw [hms, hmt] at h1 h2
  simp only at h1 h2
  subst h1
  cases r with
  | error e => exact ⟨rfl, h2⟩
  | ok a => exact hf a s' t' h2

theorem Sim.get_bind {f : σ → Py σ B} {f' : τ → Py τ B} (hf : ∀ s t, R s t → Sim R (f s) (f' t)) :
    Sim R (get >>= f) (get >>= f') := by
  intro s t hst
  exact hf s t hst s t hst

theorem Sim.pure (a : A) : Sim R (Pure.pure a) (Pure.pure a) := fun _ _ h => ⟨rfl, h⟩
theorem Sim.raise (e : PyErr) : Sim R (Py.raise e : Py σ A) (Py.raise e) := fun _ _ h => ⟨rfl, h⟩
theorem Sim.lift (x : Except PyErr A) : Sim R (Py.lift x) (Py.lift x) := fun _ _ h => ⟨rfl, h⟩
theorem Sim.modify {f : σ → σ} {f' : τ → τ} (h : ∀ s t, R s t → R (f s) (f' t)) : Sim R (Py.modify f) (Py.modify f') :=
  fun _ _ hst => ⟨rfl, h _ _ hst⟩

end Sim

/-- bind, run on a state, case by case -/
theorem bind_ok {m : Py σ A} {f : A → Py σ B} {s s' : σ} {a : A} (h : m s = (.ok a, s')) : (m >>= f) s = f a s' := by
  rw [bind_apply, h]

theorem bind_error {m : Py σ A} {f : A → Py σ B} {s s' : σ} {e : PyErr} (h : m s = (.error e, s')) :
    (m >>= f) s = (.error e, s') := by
  rw [bind_apply, h]

end Py

namespace Arm
variable {E β α W : Type} [Field α] [LinearOrder α]

theorem deltaOk_iff (delta : Fl α) : deltaOk delta = true ↔ ValidDelta delta := by
  unfold deltaOk ValidDelta
  cases delta <;> simp [Fl.lt]

/-- What the estimation phase may change: everything except folds, counter and `delta`. -/
def KeepData (a b : ArmState E β α × W) : Prop :=
  b.1.split = a.1.split ∧ b.1.numPulled = a.1.numPulled ∧ b.1.delta = a.1.delta

theorem KeepData.refl (a : ArmState E β α × W) : KeepData a a := ⟨rfl, rfl, rfl⟩
theorem KeepData.trans (a b c : ArmState E β α × W) (h : KeepData a b) (h' : KeepData b c) : KeepData a c :=
  ⟨h'.1.trans h.1, h'.2.1.trans h.2.1, h'.2.2.trans h.2.2⟩

/-- Data calls allowed when the folds are `fs`: fit on fold 0, score on fold 1. -/
def CallOk (fs : Option (List (ExpData β))) : EtaCall β → Prop
  | .fit d => ∃ l, fs = some l ∧ l[0]? = some d
  | .score d => ∃ l, fs = some l ∧ l[1]? = some d

/-- With folds `fs`: the folds stay and the log is extended by allowed calls only. -/
def LogOk (fs : Option (List (ExpData β))) (a b : ArmState (E × List (EtaCall β)) β α × W) : Prop :=
  a.1.split = fs → b.1.split = fs ∧ ∃ es, b.1.eta.2 = a.1.eta.2 ++ es ∧ ∀ c ∈ es, CallOk fs c

theorem LogOk.refl (fs : Option (List (ExpData β))) (a : ArmState (E × List (EtaCall β)) β α × W) : LogOk fs a a :=
  fun h => ⟨h, [], by simp, by simp⟩
theorem LogOk.trans (fs : Option (List (ExpData β))) (a b c : ArmState (E × List (EtaCall β)) β α × W)
    (h : LogOk fs a b) (h' : LogOk fs b c) : LogOk fs a c := by
  intro hs
  obtain ⟨h1, es, h2, h3⟩ := h hs
  obtain ⟨h1', es', h2', h3'⟩ := h' h1
  refine ⟨h1', es ++ es', by rw [h2', h2, List.append_assoc], ?_⟩
  intro c hc
  rcases List.mem_append.mp hc with hc | hc
  · exact h3 c hc
  · exact h3' c hc

theorem log_fold_bind {B : Type} (fs : Option (List (ExpData β))) (i : Nat)
    (f : ExpData β → Py (ArmState (E × List (EtaCall β)) β α × W) B)
    (h : ∀ l d, fs = some l → l[i]? = some d → Py.Frame (LogOk fs) (f d)) : Py.Frame (LogOk fs) (fold i >>= f) := by
  intro s hs
  rw [Py.bind_apply]
  unfold fold
  rcases hl : s.1.split with _ | l
  · simp only [hl]; have := LogOk.refl fs s hs; rw [hl] at this; exact this
  · simp only [hl]
    rcases hd : l[i]? with _ | d
    · exact LogOk.refl fs s hs
    · exact h l d (hs ▸ hl) hd s hs

theorem frame_fold (R : ArmState E β α × W → ArmState E β α × W → Prop) (hr : ∀ a, R a a) (i : Nat) :
    Py.Frame R (fold i) := by
  intro s
  unfold fold
  rcases hs : s.1.split with _ | l
  · simp only [hs]; exact hr _
  · simp only [hs]
    rcases hd : l[i]? with _ | d <;> exact hr _

theorem keep_setCi (lo hi : Fl α) : Py.Frame (KeepData (E := E) (β := β) (W := W)) (setCi lo hi) :=
  Py.Frame.bind KeepData.trans (Py.Frame.modify fun _ => ⟨rfl, rfl, rfl⟩) (fun _ => Py.Frame.pure KeepData.refl _)

theorem keep_etaFit (ops : EtaOps E β α) (d : ExpData β) : Py.Frame (KeepData (W := W)) (etaFit ops d) := fun _ => ⟨rfl, rfl, rfl⟩
theorem keep_etaScore (ops : EtaOps E β α) (d : ExpData β) : Py.Frame (KeepData (W := W)) (etaScore ops d) := fun _ => ⟨rfl, rfl, rfl⟩

theorem keep_ssEstimate (cfg : SSConfig β α) (ops : EtaOps E β α) (lib : Libm α) (delta : Fl α) :
    Py.Frame (KeepData (W := W)) (ssEstimate cfg ops lib delta) := by
  unfold ssEstimate
  have B {A C : Type} {m : Py (ArmState E β α × W) A} {f : A → Py (ArmState E β α × W) C} :=
    @Py.Frame.bind _ A C _ (KeepData.trans (E := E) (β := β) (α := α) (W := W)) m f
  have R := KeepData.refl (E := E) (β := β) (α := α) (W := W)
  have M {f : ArmState E β α × W → ArmState E β α × W} := @Py.Frame.modify _ (KeepData (E := E) (β := β) (α := α) (W := W)) f
  refine B (frame_fold _ R 0) fun f0 => B (keep_etaFit _ _) fun _ => B (Py.Frame.get R) fun sw => B (Py.Frame.lift R _) fun enough => ?_
  split
  · exact B (M fun _ => ⟨rfl, rfl, rfl⟩) fun _ => keep_setCi _ _
  · refine B (frame_fold _ R 1) fun f1 => B (keep_etaScore _ _) fun _ => B (M fun _ => ⟨rfl, rfl, rfl⟩) fun _ =>
      B (keep_etaScore _ _) fun _ => B (M fun _ => ⟨rfl, rfl, rfl⟩) fun _ => ?_
    split
    · exact Py.Frame.raise R _
    · split
      · exact keep_setCi _ _
      · exact B (keep_etaScore _ _) fun _ => B (Py.Frame.get R) fun _ => keep_setCi _ _
      · split
        · exact Py.Frame.raise R _
        · refine B (Py.Frame.get R) fun _ => B (Py.Frame.lift R _) fun _ => ?_
          split
          · exact keep_setCi _ _
          · split
            · exact Py.Frame.raise R _
            · exact keep_setCi _ _
      · exact Py.Frame.raise R _

theorem log_modify (fs : Option (List (ExpData β)))
    {f : ArmState (E × List (EtaCall β)) β α × W → ArmState (E × List (EtaCall β)) β α × W}
    (h : ∀ s, (f s).1.split = s.1.split ∧ (f s).1.eta = s.1.eta) : Py.Frame (LogOk fs) (Py.modify f) := by
  intro s hs
  refine ⟨by rw [Py.modify_apply]; simp only [(h s).1, hs], [], ?_, by simp⟩
  rw [Py.modify_apply]; simp only [(h s).2, List.append_nil]

theorem log_setCi (fs : Option (List (ExpData β))) (lo hi : Fl α) :
    Py.Frame (LogOk (E := E) (W := W) fs) (setCi lo hi) :=
  Py.Frame.bind (LogOk.trans fs) (log_modify fs fun _ => ⟨rfl, rfl⟩) (fun _ => Py.Frame.pure (LogOk.refl fs) _)

theorem log_etaFit (fs : Option (List (ExpData β))) (ops : EtaOps E β α) (d : ExpData β) (h : CallOk fs (.fit d)) :
    Py.Frame (LogOk (W := W) fs) (etaFit ops.logged d) := by
  intro s hs
  exact ⟨hs, [.fit d], rfl, by simpa using h⟩

theorem log_etaScore (fs : Option (List (ExpData β))) (ops : EtaOps E β α) (d : ExpData β) (h : CallOk fs (.score d)) :
    Py.Frame (LogOk (W := W) fs) (etaScore ops.logged d) := by
  intro s hs
  exact ⟨hs, [.score d], rfl, by simpa using h⟩

theorem log_ssEstimate (fs : Option (List (ExpData β))) (cfg : SSConfig β α) (ops : EtaOps E β α) (lib : Libm α)
    (delta : Fl α) : Py.Frame (LogOk (W := W) fs) (ssEstimate cfg ops.logged lib delta) := by
  unfold ssEstimate
  have B {A C : Type} {m : Py (ArmState (E × List (EtaCall β)) β α × W) A} {f : A → Py (ArmState (E × List (EtaCall β)) β α × W) C} :=
    @Py.Frame.bind _ A C _ (LogOk.trans (E := E) (β := β) (α := α) (W := W) fs) m f
  have R := LogOk.refl (E := E) (β := β) (α := α) (W := W) fs
  refine log_fold_bind fs 0 _ fun l0 f0 e1 e2 => B (log_etaFit fs _ _ ⟨l0, e1, e2⟩) fun _ =>
    B (Py.Frame.get R) fun sw => B (Py.Frame.lift R _) fun enough => ?_
  split
  · exact B (log_modify fs fun _ => ⟨rfl, rfl⟩) fun _ => log_setCi fs _ _
  · refine log_fold_bind fs 1 _ fun l1 f1 e3 e4 => ?_
    have S := log_etaScore (W := W) fs ops f1 ⟨l1, e3, e4⟩
    refine B S fun _ => B (log_modify fs fun _ => ⟨rfl, rfl⟩) fun _ => B S fun _ => B (log_modify fs fun _ => ⟨rfl, rfl⟩) fun _ => ?_
    split
    · exact Py.Frame.raise R _
    · split
      · exact log_setCi fs _ _
      · exact B S fun _ => B (Py.Frame.get R) fun _ => log_setCi fs _ _
      · split
        · exact Py.Frame.raise R _
        · refine B (Py.Frame.get R) fun _ => B (Py.Frame.lift R _) fun _ => ?_
          split
          · exact log_setCi fs _ _
          · split
            · exact Py.Frame.raise R _
            · exact log_setCi fs _ _
      · exact Py.Frame.raise R _

end Arm
end Verif
