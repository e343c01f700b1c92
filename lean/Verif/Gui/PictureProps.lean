import Verif.Gui.PictureModel
import Verif.Evaluator.FitProps

/-!
# The pictures of raw data show the data and the result (C164)
-/

namespace Qtune.Gui.Picture

open Qtune.Evaluator.Fit

/-! ## Specification -/

/-- The picture consists of the data, the curve of the fit and the curve of the start values, all over the points `x`, in one axes. -/
def FitPicture (d : Drawing) (x y fit : List Val) : Prop :=
  ∃ guess, guess.length = x.length ∧ d = ⟨[(0, .data x y), (0, .fit x fit), (0, .guess x guess)], none⟩

/-- A Series with these labels. -/
def Labelled (s : Series) (labels : List String) : Prop := s.map Prod.fst = labels

/-- The values of a function at the points `x`. -/
def sampled (g : ℝ → ℝ) (x : List ℝ) : List Val := x.map fun t => some (g t)

/-! ## Lemmas -/

theorem zip_val : ∀ {names : List String} {vs : List Val}, names.Nodup → names.length = vs.length →
    names.map (Series.val (names.zip vs)) = vs := by
  intro names
  induction names with
  | nil => intro vs _ h; cases vs with
    | nil => rfl
    | cons => cases h
  | cons n names ih =>
    intro vs hn hl
    cases vs with
    | nil => cases hl
    | cons v vs =>
      rw [List.nodup_cons] at hn
      have hi := ih hn.2 (Nat.succ.inj hl)
      rw [List.map_cons]
      refine congrArg₂ _ ?_ ?_
      · simp [Series.val, List.zip_cons_cons]
      · refine Eq.trans (List.map_congr_left fun k hk => ?_) hi
        have hne : k ≠ n := fun h => hn.1 (h ▸ hk)
        simp only [Series.val, List.zip_cons_cons, List.lookup_cons, beq_eq_false_iff_ne.mpr hne]

theorem mapM_some (p : List ℝ) : (p.map some).mapM (id : Val → Option ℝ) = some p := by
  induction p with
  | nil => rfl
  | cons a p ih => simp only [List.map_cons, List.mapM_cons, ih, id]; rfl

theorem mapM_none : ∀ {l : List Val}, none ∈ l → l.mapM (id : Val → Option ℝ) = none := by
  intro l
  induction l with
  | nil => intro h; cases h
  | cons a l ih =>
    intro h
    cases a with
    | none => rfl
    | some a =>
      have := ih (by simpa using h)
      simp only [List.mapM_cons, this]; rfl

theorem call_length {f : Function} {x : List Val} {args : Series} (h : Labelled args f.names) :
    ∃ y, f.call x args = .ok y ∧ y.length = x.length := by
  unfold Function.call
  rw [if_pos ⟨by rw [h]; exact fun k hk => hk, by rw [h]; exact fun k hk => hk⟩]
  refine ⟨_, rfl, ?_⟩
  split <;> simp

theorem call_fit {f : Function} (hf : f.names.Nodup) {x : List ℝ} {p : List ℝ} (hp : p.length = f.names.length) :
    f.call (x.map some) (f.names.zip (p.map some)) = .ok (sampled (f.value p x) x) := by
  have hfst : (f.names.zip (p.map some)).map Prod.fst = f.names := List.map_fst_zip (by simp [hp])
  unfold Function.call
  rw [if_pos ⟨by rw [hfst]; exact fun k hk => hk, by rw [hfst]; exact fun k hk => hk⟩, zip_val hf (by simp [hp]), mapM_some]
  simp [sampled, Function.comp_def]

theorem call_nans {f : Function} (hne : f.names ≠ []) (x : List Val) :
    f.call x (nans f.names) = .ok (x.map fun _ => none) := by
  have hfst : (nans f.names).map Prod.fst = f.names := by simp [nans, Function.comp_def]
  unfold Function.call
  rw [if_pos ⟨by rw [hfst]; exact fun k hk => hk, by rw [hfst]; exact fun k hk => hk⟩]
  have hval : ∀ k, Series.val (nans f.names) k = none := by
    intro k
    unfold Series.val nans
    induction f.names with
    | nil => rfl
    | cons n l ih =>
      rw [List.map_cons, List.lookup_cons]
      split
      · rfl
      · exact ih
  rw [mapM_none]
  obtain ⟨k, hk⟩ := List.exists_mem_of_ne_nil _ hne
  exact List.mem_map.mpr ⟨k, hk, hval k⟩

theorem curve_ok {f : Function} (k : Nat) (item : List Val → List Val → Item) {x y : List Val} {args : Series} (hne : args ≠ [])
    (h : f.call x args = .ok y) : curve f k item x (some args) = ⟨[(k, item x y)], none⟩ := by
  cases args with
  | nil => exact absurd rfl hne
  | cons a args => simp only [curve, h]

theorem Labelled.ne {s : Series} {labels : List String} (h : Labelled s labels) (hne : labels ≠ []) : s ≠ [] := by
  rintro rfl
  exact hne h.symm

theorem plotFit1_ok {f : Function} (hne : f.names ≠ []) {x y fit : List Val} (hl : x.length = y.length) {args guess : Series}
    (h : f.call x args = .ok fit) (ha : args ≠ []) (hg : Labelled guess f.names) :
    FitPicture (plotFit1 f 0 x y (some args) (some guess)) x y fit := by
  obtain ⟨g, h1, h2⟩ := call_length (x := x) hg
  refine ⟨g, h2, ?_⟩
  unfold plotFit1
  rw [if_neg (by simpa using hl), curve_ok 0 _ ha h, curve_ok 0 _ (hg.ne hne) h1]
  rfl

theorem interDotFit_length {N : Numerics} (hN : N.Spec) {x : List ℝ} {y : List Val} {r : List ℝ × Val} (h : interDotFit N x y = .ok r) :
    r.1.length = 5 := by
  unfold interDotFit at h
  dsimp only at h
  split at h
  · cases h
  · cases h
  · split at h
    · cases h
    · split at h
      · cases h
      · rename_i popt h1
        split at h
        · cases h
        · split at h
          · cases h
          · rename_i popt' h2
            cases h
            have := hN.size _ _ h1
            have h3 := hN.size _ _ h2
            simpa [this] using h3

theorem plotFit_d1 (f : Function) (k : Nat) (x : List Val) {data : NdArray} (hd : data ≠ .more) (args guess : Option Series) :
    plotFit f k (.array (.d1 x)) (.array data) args guess = plotFit1 f k x data.averaged args guess := by
  cases data with
  | d1 l => rfl
  | d2 w rows => rfl
  | more => exact absurd rfl hd

theorem window_first {name : String} (hname : name = "InterDotTCByLineScan" ∨ name = "LeadTunnelTimeByLeadScan") (x y : Raw)
    (fit guess : Option Series) :
    let f := if name = "InterDotTCByLineScan" then coupling else leadTimes
    window name (.fitting 1 x y fit guess) = plotFit f 0 x y fit guess ∧ figure name (.fitting 1 x y fit guess) = plotFit f 0 x y fit guess := by
  rcases hname with rfl | rfl
  · constructor
    · unfold window
      rw [if_neg (by decide)]
      rfl
    · rfl
  · constructor
    · unfold window
      rw [if_neg (by decide)]
      rfl
    · rfl

/-! ## Theorems -/

/-- **C164** (partial) — after a line scan was evaluated by `InterDotTCByLineScan`, the window and the figure show the points of the scan with the
measured data, averaged over the repetitions, and the curve with the coupling that is reported; if the fit failed, the coupling is NaN and
the curve empty. -/
theorem coupling_picture_partial (N : Numerics) (hN : N.Spec) (ev : InterDot) (n : Nat) (data : NdArray) (hd : LineScan n data)
    (r : Series × Series) (h : (ev.evaluate N (.ok data)).2 = .ok r) (guess : Series) (hg : Labelled guess interDotLabels) :
    let ev' := (ev.evaluate N (.ok data)).1
    let e : Entry := .fitting 1 ev'.rawX ev'.rawY ev'.fitResults (some guess)
    let x := (List.range n).map (scanPoint ev.center ev.range n)
    ∃ fit, FitPicture (window "InterDotTCByLineScan" e) (x.map some) data.averaged fit ∧
      FitPicture (figure "InterDotTCByLineScan" e) (x.map some) data.averaged fit ∧
      ((r.1.val "parameter_tunnel_coupling" = none ∧ ∀ v ∈ fit, v = none) ∨
        ∃ offset slope height position width, r.1.val "parameter_tunnel_coupling" = some width ∧
          fit = sampled (fun t => offset + slope * t + height / 2 * (1 + Real.tanh ((t - position) / width))) x) := by
  have hmore : data ≠ .more := by rintro rfl; exact hd
  have hx : linspaceList (ev.center - ev.range) (ev.center + ev.range) n = (List.range n).map (scanPoint ev.center ev.range n) := by
    refine List.map_congr_left fun j _ => ?_
    unfold scanPoint
    ring_nf
  have hev : (ev.evaluate N (.ok data)) = InterDot.finish N { ev with rawY := .array data, rawX := ev.points n } := by
    cases data with
    | d1 l => cases hd; rfl
    | d2 w rows => obtain ⟨rfl, _⟩ := hd; rfl
    | more => exact absurd rfl hmore
  rw [hev] at h ⊢
  have hproc : ∃ y, interDotProcess N (.pair (ev.points n) (.array data)) = interDotFit N y data.averaged := by
    cases data with
    | d1 l => exact ⟨_, rfl⟩
    | d2 w rows => exact ⟨_, rfl⟩
    | more => exact absurd rfl hmore
  obtain ⟨xs, hproc⟩ := hproc
  have hlen : ((List.range n).map (scanPoint ev.center ev.range n)).length = n := by simp
  have key : ∀ (res : Series) (fit : List Val), res ≠ [] →
      coupling.call (((List.range n).map (scanPoint ev.center ev.range n)).map some) res = .ok fit →
      FitPicture (plotFit coupling 0 (ev.points n) (.array data) (some res) (some guess))
        (((List.range n).map (scanPoint ev.center ev.range n)).map some) data.averaged fit := by
    intro res fit hne hcall
    unfold InterDot.points
    rw [plotFit_d1 _ _ _ hmore, hx]
    exact plotFit1_ok (by decide) (by simp [averaged_length hd]) hcall hne hg
  unfold InterDot.finish at h ⊢
  dsimp only at h ⊢
  cases hp : interDotProcess N (.pair (ev.points n) (.array data)) with
  | error err =>
    rw [hp] at h
    cases err with
    | runtimeError msg =>
      dsimp only at h ⊢
      cases h
      have hcall := call_nans (f := coupling) (by decide) (((List.range n).map (scanPoint ev.center ev.range n)).map some)
      have hk := key (nans interDotLabels) _ (by decide) hcall
      refine ⟨(((List.range n).map (scanPoint ev.center ev.range n)).map some).map fun _ => none, ?_, ?_, .inl ⟨rfl, fun v hv => ?_⟩⟩
      · rw [(window_first (.inl rfl) _ _ _ _).1]; exact hk
      · rw [(window_first (.inl rfl) _ _ _ _).2]; exact hk
      · obtain ⟨_, _, rfl⟩ := List.mem_map.mp hv
        rfl
    | _ => cases h
  | ok res =>
    rw [hp] at h
    obtain ⟨popt, residual⟩ := res
    dsimp only at h ⊢
    cases h
    have hl : popt.length = 5 := interDotFit_length hN (hproc ▸ hp)
    obtain ⟨a, b, c, d, w, rfl⟩ : ∃ a b c d w, popt = [a, b, c, d, w] := by
      match popt, hl with
      | [a, b, c, d, w], _ => exact ⟨a, b, c, d, w, rfl⟩
    have hcall := call_fit (f := coupling) (by decide) (x := (List.range n).map (scanPoint ev.center ev.range n)) (p := [a, b, c, d, w]) rfl
    have hk := key _ _ (by simp [coupling, interDotLabels]) hcall
    refine ⟨sampled (coupling.value [a, b, c, d, w] ((List.range n).map (scanPoint ev.center ev.range n)))
      ((List.range n).map (scanPoint ev.center ev.range n)), ?_, ?_, .inr ⟨a, b, c, d, w, rfl, ?_⟩⟩
    · rw [(window_first (.inl rfl) _ _ _ _).1]; exact hk
    · rw [(window_first (.inl rfl) _ _ _ _).2]; exact hk
    · refine List.map_congr_left fun t _ => ?_
      show some (interDotModel a b c d w t) = _
      unfold interDotModel
      congr 1
      ring

/-- The data of a measurement of tunnel times: the difference of the two lines. -/
theorem lead_stored {labels : List String} {process : Raw → Except PyErr (List ℝ)} {next : List ℝ → Start → Start} {n : Nat}
    {a b : List Val} {ev : LeadTime} {r : Series × Series} (h : (ev.evaluate labels process next (.ok (.d2 n [a, b]))).2 = .ok r) :
    ∃ popt, process (.array (.d2 n [a, b])) = .ok popt ∧ r = leadReport popt ∧
      (ev.evaluate labels process next (.ok (.d2 n [a, b]))).1.rawX =
        .array (.d1 ((List.range (b.zipWith Val.sub a).length).map fun (i : Nat) => some (i / ev.sampleRate))) ∧
      (ev.evaluate labels process next (.ok (.d2 n [a, b]))).1.rawY = .array (.d1 (b.zipWith Val.sub a)) ∧
      (ev.evaluate labels process next (.ok (.d2 n [a, b]))).1.fitResults = some (labels.zip (popt.map some)) := by
  revert h
  unfold LeadTime.evaluate
  dsimp only
  rw [difference_two]
  dsimp only
  cases hp : process (.array (.d2 n [a, b])) with
  | error e => intro h; cases h
  | ok popt => intro h; cases h; exact ⟨popt, rfl, rfl, rfl, rfl, rfl⟩

theorem leadStart_length {s : Start} {y p : List Val} (h : leadStart s y = .ok p) : p.length = 6 := by
  unfold leadStart at h
  split at h <;> cases h
  rfl

theorem prefit_length {N : Numerics} (hN : N.Spec) {rate : ℝ} {s : Start} {raw : Raw} {popt : List ℝ}
    (h : prefitProcess N rate s raw = .ok popt) : popt.length = 6 := by
  unfold prefitProcess at h
  split at h
  · cases h
  · dsimp only at h
    split at h
    · cases h
    · rename_i p0 hp0
      split at h
      · cases h
      · rename_i q hq
        have h1 := hN.size _ _ hq
        have h2 := hN.size _ _ h
        rw [leadStart_length hp0] at h1
        simpa [h1] using h2

theorem scan_length {N : Numerics} (hN : N.Spec) {rate : ℝ} {s : Start} {raw : Raw} {popt : List ℝ}
    (h : scanProcess N rate s raw = .ok popt) : popt.length = 12 := by
  have hs : ∀ {x : List ℝ} {y : List Val} {b : Int} {l : List Val}, shortLine x y b = .ok l → l.length = 3 := by
    intro x y b l h
    unfold shortLine at h
    split at h <;> cases h
    rfl
  unfold scanProcess at h
  split at h
  · cases h
  · dsimp only at h
    split at h
    · cases h
    · rename_i p0 hp0
      split at h
      · cases h
      · rename_i l hl
        split at h
        · cases h
        · rename_i l1 hl1
          have h2 := hN.size _ _ h
          simpa [leadStart_length hp0, hs hl, hs hl1] using h2

/-- **C164** (partial) — `LeadTunnelTimePrefitVersion`: the window and the figure show the difference of the two lines over the time, and the
curve with the times that are reported. -/
theorem tunnel_times_picture_partial (N : Numerics) (hN : N.Spec) (ev : LeadTime) (n : Nat) (a b : List Val) (ha : a.length = n)
    (hb : b.length = n) (r : Series × Series) (h : (prefitEvaluate N (.ok (.d2 n [a, b])) ev).2 = .ok r) (guess : Series)
    (hg : Labelled guess leadLabels) :
    let ev' := (prefitEvaluate N (.ok (.d2 n [a, b])) ev).1
    let e : Entry := .fitting 1 ev'.rawX ev'.rawY ev'.fitResults (some guess)
    let x := (List.range n).map fun (i : Nat) => (i : ℝ) / ev.sampleRate
    ∃ height tFall tRise beginRise beginFall offset, r.1.val "parameter_time_rise" = some tRise ∧ r.1.val "parameter_time_fall" = some tFall ∧
      let fit := sampled (leadTimes1 height tFall tRise beginRise beginFall offset (x.getLastD 0)) x
      FitPicture (window "LeadTunnelTimeByLeadScan" e) (x.map some) (b.zipWith Val.sub a) fit ∧
      FitPicture (figure "LeadTunnelTimeByLeadScan" e) (x.map some) (b.zipWith Val.sub a) fit := by
  obtain ⟨popt, hp, rfl, hx, hy, hf⟩ := lead_stored h
  have hl := prefit_length hN hp
  obtain ⟨p0, p1, p2, p3, p4, p5, rfl⟩ : ∃ p0 p1 p2 p3 p4 p5, popt = [p0, p1, p2, p3, p4, p5] := by
    match popt, hl with
    | [p0, p1, p2, p3, p4, p5], _ => exact ⟨p0, p1, p2, p3, p4, p5, rfl⟩
  have hlen : (b.zipWith Val.sub a).length = n := by simp [ha, hb]
  refine ⟨p0, p1, p2, p3, p4, p5, rfl, rfl, ?_⟩
  have hcall := call_fit (f := leadTimes) (by decide) (x := (List.range n).map fun (i : Nat) => (i : ℝ) / ev.sampleRate)
    (p := [p0, p1, p2, p3, p4, p5]) rfl
  have hk : FitPicture (plotFit leadTimes 0 (.array (.d1 (((List.range n).map fun (i : Nat) => (i : ℝ) / ev.sampleRate).map some)))
      (.array (.d1 (b.zipWith Val.sub a))) (some (leadLabels.zip ([p0, p1, p2, p3, p4, p5].map some))) (some guess))
      (((List.range n).map fun (i : Nat) => (i : ℝ) / ev.sampleRate).map some) (b.zipWith Val.sub a)
      (sampled (leadTimes.value [p0, p1, p2, p3, p4, p5] ((List.range n).map fun (i : Nat) => (i : ℝ) / ev.sampleRate))
        ((List.range n).map fun (i : Nat) => (i : ℝ) / ev.sampleRate)) := by
    rw [plotFit_d1 _ _ _ (by simp)]
    exact plotFit1_ok (by decide) (by simp [NdArray.averaged, hlen]) hcall (by simp [leadLabels]) hg
  have hrx : ((prefitEvaluate N (.ok (.d2 n [a, b])) ev).1).rawX =
      .array (.d1 (((List.range n).map fun (i : Nat) => (i : ℝ) / ev.sampleRate).map some)) := by
    refine Eq.trans hx ?_
    rw [hlen, List.map_map]
    rfl
  dsimp only
  have hry : ((prefitEvaluate N (.ok (.d2 n [a, b])) ev).1).rawY = .array (.d1 (b.zipWith Val.sub a)) := hy
  have hrf : ((prefitEvaluate N (.ok (.d2 n [a, b])) ev).1).fitResults = some (leadLabels.zip ([p0, p1, p2, p3, p4, p5].map some)) := hf
  rw [(window_first (.inr rfl) _ _ _ _).1, (window_first (.inr rfl) _ _ _ _).2, hrx, hry, hrf]
  exact ⟨hk, hk⟩

/-- **C164 refuted for `LeadTunnelTimeByLeadScan`** — after every evaluation with a fit, the window and the figure only show the data: the curve
is drawn by a function that does not have six of the twelve fit parameters, which raises `TypeError`. -/
theorem tunnel_times_picture_refuted (N : Numerics) (hN : N.Spec) (ev : LeadTime) (n : Nat) (a b : List Val) (ha : a.length = n)
    (hb : b.length = n) (r : Series × Series) (h : (scanEvaluate N (.ok (.d2 n [a, b])) ev).2 = .ok r) (guess : Option Series) :
    let ev' := (scanEvaluate N (.ok (.d2 n [a, b])) ev).1
    let e : Entry := .fitting 1 ev'.rawX ev'.rawY ev'.fitResults guess
    let x := (List.range n).map fun (i : Nat) => some ((i : ℝ) / ev.sampleRate)
    window "LeadTunnelTimeByLeadScan" e = ⟨[(0, .data x (b.zipWith Val.sub a))], some .typeError⟩ ∧
      figure "LeadTunnelTimeByLeadScan" e = ⟨[(0, .data x (b.zipWith Val.sub a))], some .typeError⟩ := by
  obtain ⟨popt, hp, rfl, hx, hy, hf⟩ := lead_stored h
  have hl := scan_length hN hp
  have hlen : (b.zipWith Val.sub a).length = n := by simp [ha, hb]
  rw [hlen] at hx
  have hrx : ((scanEvaluate N (.ok (.d2 n [a, b])) ev).1).rawX =
      .array (.d1 ((List.range n).map fun (i : Nat) => some ((i : ℝ) / ev.sampleRate))) := hx
  have hry : ((scanEvaluate N (.ok (.d2 n [a, b])) ev).1).rawY = .array (.d1 (b.zipWith Val.sub a)) := hy
  have hrf : ((scanEvaluate N (.ok (.d2 n [a, b])) ev).1).fitResults = some (scanLabels.zip (popt.map some)) := hf
  have hfst : (scanLabels.zip (popt.map some)).map Prod.fst = scanLabels := List.map_fst_zip (by simp [hl, scanLabels, leadLabels])
  have hcall : ∀ x, leadTimes.call x (scanLabels.zip (popt.map some)) = .error .typeError := by
    intro x
    unfold Function.call
    rw [if_neg]
    rintro ⟨hk, _⟩
    rw [hfst] at hk
    have := hk "slope" (by decide)
    revert this
    decide
  have hne : scanLabels.zip (popt.map some) ≠ [] := by
    intro h0
    rw [h0] at hfst
    revert hfst
    decide
  have hk : plotFit leadTimes 0 (.array (.d1 ((List.range n).map fun (i : Nat) => some ((i : ℝ) / ev.sampleRate))))
      (.array (.d1 (b.zipWith Val.sub a))) (some (scanLabels.zip (popt.map some))) guess =
      ⟨[(0, .data ((List.range n).map fun (i : Nat) => some ((i : ℝ) / ev.sampleRate)) (b.zipWith Val.sub a))], some .typeError⟩ := by
    rw [plotFit_d1 _ _ _ (by simp)]
    unfold plotFit1
    rw [if_neg (by simp [NdArray.averaged, hlen])]
    have hc : curve leadTimes 0 .fit ((List.range n).map fun (i : Nat) => some ((i : ℝ) / ev.sampleRate))
        (some (scanLabels.zip (popt.map some))) = raise .typeError := by
      generalize hs : scanLabels.zip (popt.map some) = s at hcall hne
      cases s with
      | nil => exact absurd rfl hne
      | cons c s => simp only [curve, hcall]
    rw [hc]
    rfl
  dsimp only
  rw [(window_first (.inr rfl) _ _ _ _).1, (window_first (.inr rfl) _ _ _ _).2, hrx, hry, hrf]
  exact ⟨hk, hk⟩

theorem loadProcess_length {N : Numerics} (hN : N.Spec) {c c' : ℝ} {raw : Raw} {r : List ℝ × Val × ℝ}
    (h : loadProcess N c c' raw = .ok r) : r.1.length = 3 := by
  unfold loadProcess at h
  split at h
  · cases h
  · cases h
  · dsimp only at h
    split at h
    · cases h
    · split at h
      · cases h
      · cases h
      · split at h
        · cases h
        · rename_i q hq
          split at h
          · split at h
            · cases h
            · rename_i q' hq'
              cases h
              exact hN.size _ _ hq'
          · cases h
            exact hN.size _ _ hq

/-- **C164** (partial) — `NewLoadTime`: the figure shows the two lines that were measured and the curve with the time that is reported; if the
fit failed, the time is NaN and the curve empty. -/
theorem load_time_picture_partial (N : Numerics) (hN : N.Spec) (ev : LoadTime) (n : Nat) (y : List Val) (x : List ℝ) (hy : y.length = n)
    (hx : x.length = n) (r : Series × Series) (h : (ev.evaluate N (.ok (.d2 n [y, x.map some]))).2 = .ok r) (guess : Series)
    (hg : Labelled guess loadLabels) :
    let ev' := (ev.evaluate N (.ok (.d2 n [y, x.map some]))).1
    let e : Entry := .fitting 1 ev'.rawX ev'.rawY ev'.fitResults (some guess)
    ∃ fit, FitPicture (figure "LoadTime" e) (x.map some) y fit ∧
      ((r.1.val "parameter_time_load" = none ∧ ∀ v ∈ fit, v = none) ∨
        ∃ offset height time, r.1.val "parameter_time_load" = some time ∧ fit = sampled (fun t => offset + height * Real.exp (-t / time)) x) := by
  have key : ∀ (res : Series) (fit : List Val), res ≠ [] → load.call (x.map some) res = .ok fit →
      FitPicture (figure "LoadTime" (.fitting 1 (.array (.d1 (x.map some))) (.array (.d1 y)) (some res) (some guess))) (x.map some) y fit := by
    intro res fit hne hcall
    exact plotFit1_ok (f := load) (by decide) (by simp [hx, hy, NdArray.averaged]) hcall hne hg
  revert h
  unfold LoadTime.evaluate
  dsimp only
  cases hp : loadProcess N ev.initialCurvature ev.startCurvature (.array (.d2 n [y, x.map some])) with
  | error err =>
    cases err with
    | runtimeError msg =>
      intro h
      cases h
      refine ⟨(x.map some).map fun _ => none, key (nans loadLabels) _ (by decide) (call_nans (f := load) (by decide) _), .inl ⟨rfl, fun v hv => ?_⟩⟩
      obtain ⟨_, _, rfl⟩ := List.mem_map.mp hv
      rfl
    | _ => intro h; cases h
  | ok res =>
    obtain ⟨popt, residual, c⟩ := res
    intro h
    cases h
    have hl := loadProcess_length hN hp
    obtain ⟨a, b, t, rfl⟩ : ∃ a b t, popt = [a, b, t] := by
      match popt, hl with
      | [a, b, t], _ => exact ⟨a, b, t, rfl⟩
    refine ⟨sampled (load.value [a, b, t] x) x, key (loadLabels.zip ([a, b, t].map some)) _ (by simp [loadLabels])
      (call_fit (f := load) (by decide) (p := [a, b, t]) rfl), .inr ⟨a, b, t, rfl, ?_⟩⟩
    refine List.map_congr_left fun s _ => ?_
    simp [load, loadModel]

/-- **C164 refuted for the window of a load time** — whatever was measured, the window is empty: one axes is not a list of axes. -/
theorem load_time_window_refuted (x y : Raw) (fit guess : Option Series) : window "LoadTime" (.fitting 1 x y fit guess) = raise .typeError := by
  unfold window
  rw [if_neg (by decide)]
  rfl

theorem plotTransitions_ok {x y : List (List Val)} {positions : List Val} {m : Nat} (hx : x.length = m) (hy : y.length = m)
    (hp : positions.length = m) (hl : ∀ i (h : i < m), (x[i]).length = (y[i]).length ∧ (y[i]).length ≠ 2) :
    ∀ (n k : Nat), k + n = m → plotTransitions x y positions k n =
      ⟨(List.range' k n).flatMap fun i => [(i, .data (x.getD i []) (y.getD i [])), (i, .mark (positions.getD i none))], none⟩ := by
  intro n
  induction n with
  | zero => intro k _; rfl
  | succ n ih =>
    intro k hk
    have hkm : k < m := by omega
    have h1 : x[k]? = some x[k] := List.getElem?_eq_getElem _
    have h2 : y[k]? = some y[k] := List.getElem?_eq_getElem _
    have h3 : positions[k]? = some positions[k] := List.getElem?_eq_getElem _
    unfold plotTransitions
    rw [h1, h2, h3]
    dsimp only
    rw [ih (k + 1) (by omega)]
    unfold plotMark
    rw [if_neg (hl k hkm).2, if_neg (by simpa using (hl k hkm).1)]
    simp [Drawing.andThen, List.range'_succ, h1, h2, h3]

/-- **C164** (partial) — `LeadTransition` with several scans: the axes `i` of the window and of the figure shows the data of the scan `i` with a mark at
the position that was stored for it. -/
theorem transition_picture_partial (m : Nat) (hm : 2 ≤ m) {name : String}
    (hname : name = "LeadTransition" ∨ name = "LeadTransitionRFA" ∨ name = "LeadTransitionRFB") (x y : List (List Val)) (positions : List Val)
    (hx : x.length = m) (hy : y.length = m) (hp : positions.length = m)
    (hl : ∀ i (h : i < m), (x[i]).length = (y[i]).length ∧ (y[i]).length ≠ 2) :
    let picture : Drawing :=
      ⟨(List.range m).flatMap fun i => [(i, .data (x.getD i []) (y.getD i [])), (i, .mark (positions.getD i none))], none⟩
    window name (.transition m x y positions) = picture ∧ figure name (.transition m x y positions) = picture := by
  have h0 := plotTransitions_ok hx hy hp hl m 0 (by omega)
  have hs : subplots m = .ok (.array m) := by
    match m, hm with
    | m + 2, _ => rfl
  have hw : ∀ name : String, name = "LeadTransition" ∨ name = "LeadTransitionRFA" ∨ name = "LeadTransitionRFB" →
      window name (.transition m x y positions) = plotTransition (.array m) (.transition m x y positions) ∧
      figure name (.transition m x y positions) = plotTransition (.array m) (.transition m x y positions) := by
    rintro name (rfl | rfl | rfl)
    all_goals
      refine ⟨?_, rfl⟩
      unfold window
      rw [if_neg (by decide)]
      simp only [Entry.measurements, Entry.number, hs]
      rfl
  rw [(hw name hname).1, (hw name hname).2, and_self]
  rw [List.range_eq_range']
  exact h0

/-- **C164 refuted for the window of one line scan** — with one measurement the window is empty. -/
theorem transition_window_refuted {name : String} (hname : name = "LeadTransition" ∨ name = "LeadTransitionRFA" ∨ name = "LeadTransitionRFB")
    (x y : List (List Val)) (positions : List Val) : window name (.transition 1 x y positions) = raise .typeError := by
  rcases hname with rfl | rfl | rfl
  all_goals
    unfold window
    rw [if_neg (by decide)]
    rfl

/-- **C164 refuted for scans with two points** — they cannot be drawn. -/
theorem two_points_refuted (k : Nat) (x y : List Val) (h : y.length = 2) (p : Val) : plotMark k x y p = raise .valueError := by
  unfold plotMark
  rw [if_pos h]

/-- **C164** (partial) — `SensingDot1D`: the window shows the data with a mark at the optimal position. -/
theorem sensing_dot_1d_picture_partial (x y : List Val) (hl : x.length = y.length) (h2 : y.length ≠ 2) (optimal : Val) :
    window "SensingDot1D" (.dot1 1 x y optimal) = ⟨[(0, .data x y), (0, .mark optimal)], none⟩ := by
  unfold window
  rw [if_neg (by decide)]
  refine Eq.trans (b := plotMark 0 x y optimal) rfl ?_
  unfold plotMark
  rw [if_neg h2, if_neg (by simpa using hl)]

/-- **C164 refuted for `SensingDot1D` in `plot_evaluator_data`** — it always raises `AttributeError`. -/
theorem sensing_dot_1d_figure_refuted (m : Nat) (x y : List Val) (optimal : Val) :
    figure "SensingDot1D" (.dot1 m x y optimal) = raise .attributeError := rfl

/-- **C164 refuted for the window of `SensingDot2D`** — it is empty, while `plot_evaluator_data` draws the image with the new voltages. -/
theorem sensing_dot_2d_window_refuted (x y : List Val) (v : Val × Val) :
    window "SensingDot2D" (.dot2 1 x y v) = raise .typeError ∧
      figure "SensingDot2D" (.dot2 1 x y v) = ⟨[(0, .image x y v.1 v.2)], none⟩ := by
  refine ⟨?_, rfl⟩
  unfold window
  rw [if_neg (by decide)]
  rfl

/-- **C164** (partial) — an averaging evaluator of a coupling shows the last measurement in the window. -/
theorem averaging_picture_partial (x y : Raw) (fit guess : Option Series) :
    window "AveragingInterDotTCByLineScan" (.averaging "InterDotTCByLineScan" (.fitting 1 x y fit guess)) =
      window "InterDotTCByLineScan" (.fitting 1 x y fit guess) := by
  unfold window
  rw [if_pos (by decide), if_neg (by decide)]
  rfl

/-- **C164 refuted for averaging evaluators in `plot_evaluator_data`** — it always raises `KeyError`, since they do not store their measurements. -/
theorem averaging_figure_refuted (name inner : String) (e : Entry) : figure name (.averaging inner e) = raise .keyError := rfl

/-- **C164 refuted for other names** — an evaluator whose name is not in the table, for example `AveragingLoadTime` (the default name of an
averaging evaluator of load times), `SMLineScan` or any other name given to the constructor, is not drawn. -/
theorem other_names_refuted (name : String)
    (hname : name ∉ ["InterDotTCByLineScan", "LoadTime", "LeadTransitionRFA", "LeadTransitionRFB", "SensingDot1D", "SensingDot2D",
      "LeadTransition", "AveragingInterDotTCByLineScan", "AveragingLeadTunnelTimeByLeadScan", "LeadTunnelTimeByLeadScan"]) (e : Entry) :
    (window name e).items = [] ∧ (window name e).error ≠ none ∧ (figure name e) = raise .keyError := by
  simp only [List.mem_cons, List.not_mem_nil, or_false, not_or] at hname
  have hplot : ∀ ax, plotEntry name ax e = raise .keyError := by
    intro ax
    cases e <;> simp [plotEntry, hname]
  refine ⟨?_, ?_, ?_⟩
  · unfold window
    dsimp only
    split
    · rfl
    · split
      · rfl
      · rw [hplot]; rfl
  · unfold window
    dsimp only
    split
    · simp [raise]
    · split
      · simp [raise]
      · rw [hplot]; simp [raise]
  · unfold figure
    cases e <;> simp [Entry.measurements, hplot]

/-! ## The hypotheses can be met -/

/-- `LeadTunnelTimeByLeadScan` with a fit that succeeds. -/
example : ∃ r, (scanEvaluate ideal (.ok (.d2 3 [[some 0, some 0, some 0], [some 0, some 1, some 2]]))
    ⟨["parameter_time_rise", "parameter_time_fall"], 1, ⟨0, 0, 0, 0⟩, none, .none, .none⟩).2 = .ok r := by
  have hfit : ∀ P : Problem, none ∉ P.y → P.p0.length = 12 → P.lower = [⊥, 0, 0, ⊥, ⊥, ⊥, ⊥, ⊥, 0, ⊥, ⊥, 0] →
      (∀ b ∈ P.upper, (0 : EReal) ≤ b) → ∃ r, ideal.curveFit P = .ok r := by
    intro P h1 h2 h3 h4
    have : ∃ r : List ℝ, r.length = P.p0.length ∧
        (∀ (i : Nat) (b : EReal), P.lower[i]? = some b → i < r.length → b ≤ (r.getD i 0 : ℝ)) ∧
        (∀ (i : Nat) (b : EReal), P.upper[i]? = some b → i < r.length → (r.getD i 0 : ℝ) ≤ b) := by
      have hz : ∀ i, (List.replicate P.p0.length (0 : ℝ)).getD i 0 = 0 := by
        intro i
        by_cases h : i < P.p0.length <;> simp [List.getD_eq_getElem?_getD, h]
      refine ⟨List.replicate P.p0.length 0, by simp, ?_, ?_⟩
      · intro i b hb _
        rw [hz]
        have hm : b ∈ P.lower := List.mem_of_getElem? hb
        rw [h3] at hm
        simp only [List.mem_cons, List.not_mem_nil, or_false] at hm
        rcases hm with rfl | rfl | rfl | rfl | rfl | rfl | rfl | rfl | rfl | rfl | rfl | rfl <;> simp
      · intro i b hb _
        rw [hz]
        exact h4 b (List.mem_of_getElem? hb)
    exact ⟨_, by simp only [ideal, if_neg h1, dif_pos this]; rfl⟩
  obtain ⟨P, hP, hlen⟩ : ∃ P : Problem, scanProcess ideal 1 ⟨0, 0, 0, 0⟩
      (.array (.d2 3 [[some 0, some 0, some 0], [some 0, some 1, some 2]])) = ideal.curveFit P ∧
      (none ∉ P.y ∧ P.p0.length = 12 ∧ P.lower = [⊥, 0, 0, ⊥, ⊥, ⊥, ⊥, ⊥, 0, ⊥, ⊥, 0] ∧ ∀ b ∈ P.upper, (0 : EReal) ≤ b) := by
    have hz : pyRound ((0 : ℝ) / 10e-9) = 0 := by
      unfold pyRound
      rw [zero_div]
      simp
    let y : List Val := List.zipWith Val.sub [some 0, some 1, some 2] [some 0, some 0, some 0]
    have hy : none ∉ y := by simp [y, Val.sub]
    obtain ⟨p, hp, hpl⟩ := leadStart_ok ⟨0, 0, 0, 0⟩ (y := y) (by simp [y])
    have hx : ((List.range y.length).map fun (i : Nat) => (i : ℝ) / 1).length = y.length := by simp
    obtain ⟨l, hl, hll⟩ := shortLine_ok hx (b := 0) le_rfl (by simp [y])
    unfold scanProcess
    rw [difference_two]
    dsimp only
    rw [hz]
    rw [show leadStart ⟨0, 0, 0, 0⟩ (List.zipWith Val.sub [some 0, some 1, some 2] [some 0, some 0, some 0]) = .ok p from hp]
    dsimp only
    rw [show shortLine ((List.range (List.zipWith Val.sub [some 0, some 1, some 2] [some 0, some 0, some 0]).length).map
      fun (i : Nat) => (i : ℝ) / 1) (List.zipWith Val.sub [some 0, some 1, some 2] [some 0, some 0, some 0]) 0 = .ok l from hl]
    dsimp only
    refine ⟨_, rfl, hy, by simp [hpl, hll], rfl, ?_⟩
    intro b hb
    simp only [List.mem_cons, List.not_mem_nil, or_false] at hb
    have hpos : (0 : EReal) ≤ ((((List.zipWith Val.sub [some 0, some 1, some 2] [some 0, some 0, some (0 : ℝ)]).length : ℝ) / 161 / 1 : ℝ) : EReal) := by
      exact EReal.coe_nonneg.mpr (by positivity)
    rcases hb with rfl | rfl | rfl | rfl | rfl | rfl | rfl | rfl | rfl | rfl | rfl | rfl <;> first | exact le_top | exact hpos
  obtain ⟨r, hr⟩ := hfit P hlen.1 hlen.2.1 hlen.2.2.1 hlen.2.2.2
  refine ⟨leadReport r, ?_⟩
  unfold scanEvaluate LeadTime.evaluate
  dsimp only
  rw [difference_two]
  dsimp only
  rw [hP, hr]

/-- C164, calls with a list of axes: pictures of one scan are drawn in its first axes as in a single one, the others as in an array; no axes is an
`IndexError`. -/
theorem list_of_axes (n : Nat) (e : Entry) {name : String} :
    (name = "InterDotTCByLineScan" ∨ name = "LeadTunnelTimeByLeadScan" ∨ name = "SensingDot1D" →
      plotEntry name (.list (n + 1)) e = plotEntry name .single e) ∧
    (name = "LoadTime" ∨ name = "LeadTransition" ∨ name = "LeadTransitionRFA" ∨ name = "LeadTransitionRFB" ∨ name = "SensingDot2D" →
      plotEntry name (.list (n + 1)) e = plotEntry name (.array (n + 1)) e) ∧
    (∀ m x y optimal, plotEntry "SensingDot1D" (.list 0) (.dot1 m x y optimal) = raise .indexError) ∧
    (∀ m x y v, plotEntry "SensingDot2D" (.list 0) (.dot2 m x y v) = raise .indexError) ∧
    (∀ m x y fit guess, plotEntry "LoadTime" (.list 0) (.fitting m x y fit guess) = raise .indexError) ∧
    ∀ m x y fit guess, plotEntry "InterDotTCByLineScan" (.list 0) (.fitting m x y fit guess) = raise .indexError := by
  refine ⟨?_, ?_, fun _ _ _ _ => rfl, fun _ _ _ _ => rfl, fun _ _ _ _ _ => rfl, fun _ _ _ _ _ => rfl⟩
  · rintro (rfl | rfl | rfl) <;> cases e <;> rfl
  · rintro (rfl | rfl | rfl | rfl | rfl) <;> cases e <;> rfl

example (e : Entry) : figure "AveragingLoadTime" e = raise .keyError := (other_names_refuted _ (by decide) e).2.2

example : window "LeadTransition" (.transition 2 [[some 0, some 1, some 2], [some 0, some 1, some 2]]
    [[some 0, some 5, some 5], [some 1, some 1, some 7]] [some 1, some 2]) =
    ⟨[(0, .data [some 0, some 1, some 2] [some 0, some 5, some 5]), (0, .mark (some 1)),
      (1, .data [some 0, some 1, some 2] [some 1, some 1, some 7]), (1, .mark (some 2))], none⟩ :=
  (transition_picture_partial 2 le_rfl (.inl rfl) _ _ _ rfl rfl rfl (by
    intro i h
    match i, h with
    | 0, _ => exact ⟨rfl, by simp⟩
    | 1, _ => exact ⟨rfl, by simp⟩)).1

end Qtune.Gui.Picture
