import Verif.Matlab.VoltProps

/-!
# NaN and the limits of the quadruple dot, for every quadruple dot (C95)
-/

namespace Qtune.Matlab

/-- C95 is false for every quadruple dot: whatever its gates and its voltages inside the limits are, a call that gives
NaN for a gate is not refused, and NaN is sent to the instrument for this gate. -/
theorem nan_passes_limits_refuted (pre gates : List String) (hg : gates.Nodup) (hp : ∀ g ∈ gates, g ∈ pre)
    (v : Volts) (hv : ∀ g ∈ gates, Within (-1.3) 0 v g) (g : String) (hgm : g ∈ gates) :
    qqdSetGateVoltages pre gates v [(g, none)] =
      (exactly v [(g, none)], .ok (smget (exactly v [(g, none)]) gates)) ∧
    exactly v [(g, none)] g = none := by
  have hl : ∀ l ∈ Series.index [(g, (none : Val))], l ∈ gates := by
    intro l h
    simp only [Series.index, List.map_cons, List.map_nil, List.mem_singleton] at h
    rw [h]; exact hgm
  have he : ∀ h, exactly v [(g, none)] h = if h = g then none else v h := by
    intro h
    by_cases hh : h = g
    · simp [exactly, hh]
    · have : (h == g) = false := by simpa using hh
      simp [exactly, hh, List.lookup, this]
  have hq : setQqd pre v (smget (exactly v [(g, none)]) gates) =
      (exactly v [(g, none)], .ok (smget (exactly v [(g, none)])
        (Series.index (smget (exactly v [(g, none)]) gates)))) := by
    unfold setQqd
    rw [if_neg, if_neg, if_neg, if_neg]
    · dsimp only
      rw [smset_exactly hg hl]
    · rintro ⟨p, hpm, x, y, h1, h2, h3⟩
      obtain ⟨h, hm, rfl⟩ := List.mem_map.1 hpm
      dsimp only at h1
      rw [he] at h1
      cases h2
      split at h1
      · simp [Val.sub, Val.abs] at h1
      · obtain ⟨z, hz, _⟩ := hv h hm
        rw [hz] at h1
        simp [Val.sub, Val.abs] at h1
        norm_num [← h1] at h3
    · rintro ⟨p, hpm, x, y, h1, h2, h3⟩
      obtain ⟨h, hm, rfl⟩ := List.mem_map.1 hpm
      dsimp only at h2
      rw [he] at h2
      cases h1
      split at h2
      · cases h2
      · obtain ⟨z, hz, z1, z2⟩ := hv h hm
        rw [hz] at h2
        cases h2
        linarith
    · rintro ⟨p, hpm, x, y, h1, h2, h3⟩
      obtain ⟨h, hm, rfl⟩ := List.mem_map.1 hpm
      dsimp only at h1
      rw [he] at h1
      cases h2
      split at h1
      · cases h1
      · obtain ⟨z, hz, z1, z2⟩ := hv h hm
        rw [hz] at h1
        cases h1
        linarith
    · intro hc
      apply hc
      intro h hm
      simp only [smget, Series.index, List.map_map, List.mem_map, Function.comp] at hm
      obtain ⟨a, ha, rfl⟩ := hm
      exact hp a ha
  constructor
  · unfold qqdSetGateVoltages
    rw [overwrite_smget_ok hl]
    simp only [hq]
  · rw [he]; simp

/-- The hypotheses are met: two gates at -0.5 V. -/
example : ∀ g ∈ ["A", "B"], Within (-1.3) 0 (fun _ => some (-0.5)) g :=
  fun _ _ => ⟨-0.5, rfl, by norm_num, by norm_num⟩

end Qtune.Matlab
