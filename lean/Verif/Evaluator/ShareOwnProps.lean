import Verif.Evaluator.ShareProps

/-!
# C201: the measurements that evaluators make for themselves and that experiments offer
-/

namespace Qtune.Evaluator.Share

/-- The kind of scan that an evaluator needs. -/
def Kind.needs : Kind → String
  | .leadTime => "lead_scan"
  | .tunnelCoupling => "detune_scan"
  | .loadTime => "load_scan"
  | .leadTransition _ => "line_scan"
  | .dot1 _ => "line_scan"
  | .dot2 _ _ _ => "2d_scan"

theorem addAll_new : ∀ (l : List Scan) (s : Session) (k : Nat) (h : k < l.length), (s.addAll l).scan (s.next + k) = l[k]
  | m :: l, s, 0, _ => by
    rw [Session.addAll, (addAll_spec l (s.add m)).2.2 _ (by simp [Session.add])]
    simp [Session.add]
  | m :: l, s, k + 1, h => by
    have := addAll_new l (s.add m) k (by simpa using h)
    rw [Session.addAll, show s.next + (k + 1) = (s.add m).next + k by simp only [Session.add]; omega, this]
    rfl

theorem run_names : ∀ (as : List Act) (s : Session) (i : Nat), i < s.next → ∀ w ∈ (s.run as).2, w.ref = i →
    w.scan.name = (s.scan i).name
  | [], s, i, _, w, hw, _ => by cases hw
  | a :: as, s, i, hi, w, hw, hr => by
    rcases List.mem_append.1 hw with hw | hw
    · have h := (step_log s a w hw).1
      unfold AsAsked at h
      subst hr
      split at h
      · exact h.2.2.1
      · exact h.2.1
      · rw [h]
    · have h1 := step_spec s a
      rw [run_names as (s.step a).1 i (by omega) w hw hr, (h1.2.2 i hi).1]

/-- **C201** for evaluators that are created without measurements: they make at least one for each gate that they sweep, and whatever is done
afterwards, by whomever, the scans of these measurements are of the kind that the evaluator needs.  Those of a `LeadTransition` sweep its gates,
one each, those of a `SensingDot2D` its two gates. -/
theorem own_scans (σ : Session) (kind : Kind) (acts : List Act) :
    ∃ e, (σ.create kind none).evs = σ.evs ++ [e] ∧ e.kind = kind ∧
      (∀ ref ∈ e.scans, σ.next ≤ ref ∧ ref < (σ.create kind none).next) ∧
      (∀ w ∈ ((σ.create kind none).run acts).2, w.ref ∈ e.scans → w.scan.name = kind.needs) ∧
      (∀ sweeping, kind = .leadTransition sweeping →
        e.scans.map (fun ref => ((σ.create kind none).scan ref).options "gate") = sweeping.map fun g => some (.text g)) ∧
      (∀ g₁ g₂ r, kind = .dot2 g₁ g₂ r → ∃ ref, e.scans = [ref] ∧ ((σ.create kind none).scan ref).options "gate1" = some (.text g₁) ∧
        ((σ.create kind none).scan ref).options "gate2" = some (.text g₂)) := by
  have hnext : (σ.create kind none).next = σ.next + kind.defaults.length := (addAll_spec kind.defaults σ).2.1
  have hscan : ∀ k (h : k < kind.defaults.length), (σ.create kind none).scan (σ.next + k) = kind.defaults[k] :=
    fun k h => addAll_new kind.defaults σ k h
  have hname : ∀ m ∈ kind.defaults, m.name = kind.needs := by
    intro m hm
    cases kind <;> simp only [Kind.defaults, List.mem_singleton, List.mem_map] at hm
    case leadTransition l =>
      obtain ⟨g, -, rfl⟩ := hm
      rfl
    all_goals rw [hm]; rfl
  refine ⟨⟨kind, (List.range kind.defaults.length).map (σ.next + ·)⟩, rfl, rfl, ?_, ?_, ?_, ?_⟩
  · intro ref hr
    simp only [List.mem_map, List.mem_range] at hr
    obtain ⟨k, hk, rfl⟩ := hr
    omega
  · intro w hw hr
    simp only [List.mem_map, List.mem_range] at hr
    obtain ⟨k, hk, hk'⟩ := hr
    rw [run_names acts _ (σ.next + k) (by omega) w hw hk'.symm, hscan k hk]
    exact hname _ (List.getElem_mem _)
  · rintro sweeping rfl
    apply List.ext_getElem
    · simp [Kind.defaults]
    · intro k h1 h2
      have hk : k < (Kind.leadTransition sweeping).defaults.length := by simpa [Kind.defaults] using h2
      simp only [List.getElem_map, List.getElem_range]
      rw [hscan k hk]
      simp [Kind.defaults, Scan.make, List.lookup]
  · rintro g₁ g₂ r rfl
    refine ⟨σ.next, by simp [Kind.defaults], ?_, ?_⟩ <;>
    · have := hscan 0 (by simp [Kind.defaults])
      rw [Nat.add_zero] at this
      rw [this]
      simp [Kind.defaults, Scan.make, List.lookup]

/-- **C201** for the measurements that experiments derived from `BasicDQD` offer: there is one of each kind that the evaluators other than
`SensingDot2D` need, and whatever is done with them they stay of their kind. -/
theorem offered_scans (experiment : Nat) (acts : List Act) (kind : Kind) (hk : ∀ a b r, kind ≠ .dot2 a b r) :
    ∃ ref ∈ measurementsOf experiment, (Session.new.scan ref).name = kind.needs ∧
      ∀ w ∈ (Session.new.run acts).2, w.ref = ref → w.scan.name = kind.needs := by
  have key : ∀ ref ∈ measurementsOf experiment, (Session.new.scan ref).name = kind.needs →
      ∃ ref ∈ measurementsOf experiment, (Session.new.scan ref).name = kind.needs ∧
      ∀ w ∈ (Session.new.run acts).2, w.ref = ref → w.scan.name = kind.needs := fun ref h1 h2 =>
    ⟨ref, h1, h2, fun w hw hr => by
      rw [run_names acts _ ref (by simp [measurementsOf] at h1; simp [Session.new]; omega) w hw hr, h2]⟩
  cases kind with
  | leadTime => exact key 2 (by simp [measurementsOf]) rfl
  | tunnelCoupling => exact key 1 (by simp [measurementsOf]) rfl
  | loadTime => exact key 3 (by simp [measurementsOf]) rfl
  | leadTransition _ => exact key 0 (by simp [measurementsOf]) rfl
  | dot1 _ => exact key 0 (by simp [measurementsOf]) rfl
  | dot2 a b r => exact absurd rfl (hk a b r)

/-- A `LeadTransition` that makes its own measurements and is evaluated: there is a scan to which `own_scans` applies. -/
example (d : Device) : ∃ w ∈ ((Session.new.create (.leadTransition ["A", "B"]) none).run [.evaluate 0 d]).2, w.ref = 4 ∧
    w.scan.name = "line_scan" ∧ w.volts = d.volts :=
  ⟨⟨⟨.leadTransition ["A", "B"], [4, 5]⟩, 4, .make "line_scan" [("center", .num 0), ("range", .num (4 / 1000)), ("gate", .text "A"),
      ("N_points", .num 320), ("ramptime", .num (1 / 1000)), ("N_average", .num 7), ("AWGorDecaDAC", .text "DecaDAC")], d.volts⟩,
    List.mem_append.2 (.inl (measureAll_head _ _ _ _ _)), rfl, rfl, rfl⟩

end Qtune.Evaluator.Share
