import Verif.Evaluator.Reload
import Verif.Storage.ClassModel
import Mathlib.Tactic.ByContra

/-! # C70: what the constructors keep -/

namespace Qtune.Evaluator.Reload

/-- The arguments that constructors convert (to bool, to a Series) and the one that is not kept. -/
def converted : List (String × String) :=
  [("LeadTransition", "sweeping_gates"), ("SensingDot1D", "rising_flank"), ("SensingDot2D", "rising_flank"),
    ("SMQQDPassThru", "reference_residual_sum"), ("QQDResp", "error"), ("QQDResp", "min_position"), ("QQDResp", "max_position")]

/-- A way of keeping an argument that changes nothing but `None`. -/
def Plain (f : PV → PV) : Prop := ∀ v, v ≠ .none → f v = v

theorem plain_keep : Plain keep := fun _ _ => rfl
theorem plain_orElse (d : Nat) : Plain (orElse d) := fun v h => by cases v <;> first | exact absurd rfl h | rfl

theorem attrs_plain : ∀ c ∈ classes, ∀ p ∈ c.params, (c.name, p.1) ∉ converted →
    ∃ f, (c.attrs.find? fun x => x.1 == p.1) = some (p.1, f) ∧ Plain f := by
  intro c hc p hp hn
  simp only [classes, List.mem_cons, List.not_mem_nil, or_false] at hc
  rcases hc with rfl | rfl | rfl | rfl | rfl | rfl | rfl | rfl | rfl | rfl | rfl | rfl | rfl | rfl | rfl | rfl <;>
  · simp only [leadTunnelPrefit, leadTunnelScan, interDot, loadTime, leadTransition, sensingDot1D, sensingDot2D, averaging,
      qqdPassThru, qqdLine, qqdLead, qqdSensor1D, qqdSensor2D, qqdCharge, qqdDistTP, qqdResp, baseParams, qqdParams, List.cons_append, List.nil_append,
      List.mem_cons, List.not_mem_nil, or_false] at hp
    rcases hp with rfl | rfl | rfl | rfl | rfl | rfl | rfl | rfl | rfl | rfl | rfl <;>
      first
      | exact absurd (by decide) hn
      | exact ⟨_, rfl, plain_keep⟩
      | exact ⟨_, rfl, plain_orElse _⟩

/-- An evaluator keeps every argument that the program gives for a parameter of the constructor as it is, except for those in `converted`, and
rejects arguments for which there is no parameter. -/
theorem arguments_are_kept : ∀ c ∈ classes, ∀ kw o, c.construct kw = .ok o → ∀ p v, kw.lookup p = some v → v ≠ .none →
    (c.name, p) ∉ converted → o.lookup p = some v := by
  intro c hc kw o h p v hv hne hn
  have ho := construct_ok h
  have hp : ∃ d, (p, d) ∈ c.params := by
    unfold Cls.construct at h
    split at h
    · cases h
    · rename_i hany
      by_contra hcon
      refine hany (List.any_eq_true.2 ⟨(p, v), ?_, ?_⟩)
      · clear ho h hany hcon hn hne
        induction kw with
        | nil => simp at hv
        | cons a kw ih =>
          obtain ⟨k, w⟩ := a
          by_cases hk : p = k
          · subst hk
            simp only [List.lookup_cons, beq_self_eq_true, Option.some.injEq] at hv
            rw [hv]; simp
          · simp only [List.lookup_cons, show (p == k) = false by simp [hk]] at hv
            exact List.mem_cons_of_mem _ (ih hv)
      · show (List.lookup p c.params).isNone = true
        rw [Option.isNone_iff_eq_none, List.lookup_eq_none_iff]
        intro q hq
        have : p ≠ q.1 := by rintro rfl; exact hcon ⟨q.2, hq⟩
        simpa using this
  obtain ⟨d, hd⟩ := hp
  obtain ⟨f, hf, hpl⟩ := attrs_plain c hc (p, d) hd hn
  rw [ho, lookup_map_snd, hf]
  simp only [Option.map_some, Cls.arg, hv, Option.getD_some, hpl v hne]

/-- These are all evaluators of the two modules that can be used (`Evaluator` and `FittingEvaluator` are abstract). -/
theorem classes_complete (n : String) :
    (n ∈ Storage.Classes.classesOf "evaluator" ∧ n ≠ "Evaluator" ∧ n ≠ "FittingEvaluator" ∨
      n ∈ Storage.Classes.classesOf "sm_tune_qqd" ∧ n ≠ "QQDMeasurement") ↔ n ∈ classes.map Cls.name := by
  constructor
  · rintro (⟨h, h1, h2⟩ | ⟨h, h1⟩)
    · simp only [Storage.Classes.classesOf, List.mem_cons, List.not_mem_nil, or_false] at h
      rcases h with rfl | rfl | rfl | rfl | rfl | rfl | rfl | rfl | rfl | rfl <;> first | exact absurd rfl h1 | exact absurd rfl h2 | decide
    · simp only [Storage.Classes.classesOf, List.mem_cons, List.not_mem_nil, or_false] at h
      rcases h with rfl | rfl | rfl | rfl | rfl | rfl | rfl | rfl | rfl <;> first | exact absurd rfl h1 | decide
  · intro h
    have h' : n ∈ ["LeadTunnelTimePrefitVersion", "LeadTunnelTimeByLeadScan", "InterDotTCByLineScan", "NewLoadTime", "LeadTransition", "SensingDot1D",
        "SensingDot2D", "AveragingEvaluator", "SMQQDPassThru", "QQDLine", "QQDLead", "QQDSensor1D", "QQDSensor2D", "QQDCharge", "QQDDistTP", "QQDResp"] := h
    simp only [List.mem_cons, List.not_mem_nil, or_false] at h'
    rcases h' with rfl | rfl | rfl | rfl | rfl | rfl | rfl | rfl | rfl | rfl | rfl | rfl | rfl | rfl | rfl | rfl <;> decide

/-- A load time with an own curvature. -/
example : ∃ o, loadTime.construct [("experiment", .obj 0), ("initial_curvature", .num 12)] = .ok o ∧ o.lookup "initial_curvature" = some (.num 12) := by
  exact ⟨_, rfl, arguments_are_kept loadTime (by simp [classes]) [("experiment", .obj 0), ("initial_curvature", .num 12)] _ rfl
    "initial_curvature" (.num 12) (by simp [List.lookup]) (by simp) (by decide)⟩

end Qtune.Evaluator.Reload
