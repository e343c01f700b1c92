import Verif.EndToEnd.SensedSpec
import Verif.EndToEnd.HierarchyRun

/-! # Helper lemmas: the tuner of the sensing dot on its own -/

namespace Qtune.EndToEnd

open Qtune.Tuner Qtune.Gradient Qtune.Autotuner

variable {n m K : Nat} {X : Type}

theorem forwarding_fixed (f : TargetOps.Forwarding) (p v s : Series) :
    (f.update p v s).1.target = f.target ∧ (f.update p v s).1.mapping = f.mapping := by
  unfold TargetOps.Forwarding.update
  simp only
  split_ifs <;> exact ⟨rfl, rfl⟩

theorem val_of_mem : ∀ {s : Series} {l : String} {x : Val}, s.index.Nodup → (l, x) ∈ s → s.val l = x
  | [], _, _, _, h => by simp at h
  | (l', x') :: s, l, x, hn, h => by
    simp only [Series.index, List.map_cons, List.nodup_cons] at hn
    rcases List.mem_cons.1 h with h0 | h0
    · cases h0
      simp [Series.val]
    · have hne : l ≠ l' := by
        rintro rfl
        exact hn.1 (List.mem_map.2 ⟨(l, x), h0, rfl⟩)
      have := val_of_mem (s := s) hn.2 h0
      rw [← this]
      simp [Series.val, List.lookup_cons, beq_eq_false_iff_ne.2 hne]

theorem mem_of_index {s : Series} {l : String} (h : l ∈ s.index) : ∃ x, (l, x) ∈ s := by
  obtain ⟨⟨l', x⟩, he, rfl⟩ := List.mem_map.1 h
  exact ⟨x, he⟩

theorem sorted_nodup {T : Target} {s : Series} (h : s.index.Nodup) :
    (Series.index (rescaleValues T (SensingDot.sortIndex s))).Nodup := by
  have e : Series.index (rescaleValues T (SensingDot.sortIndex s)) = (SensingDot.sortIndex s).map Prod.fst := by
    simp [rescaleValues, Series.index]
  rw [e]
  exact (((List.mergeSort_perm s _).map Prod.fst).nodup_iff).2 h

theorem labelled_index {gate : Fin n → String} (v : Volt (Fin n)) (j : Fin n) :
    gate j ∈ (labelled gate v).index := by
  unfold labelled
  rw [index_ofFn]
  exact (List.mem_ofFn' _ _).2 ⟨j, rfl⟩

/-- The suggestion after an update with a report. -/
theorem Sensor.forwarded {D : Sensor n} (hD : D.Valid) {t : SensingDot.SDTuner TargetOps.Forwarding (Fin n)}
    (ht : D.Tuner t) (q : Vec n) {outs : List Outcome} {s : Series × Series} (hs : D.Reports outs s) (vs : Series) :
    ∃ f' : TargetOps.Forwarding, (forwarding D.gateName).update (volts q)
        (rescaleValues D.target (SensingDot.sortIndex s.1)) vs t.solver = (f', .ok ()) ∧
      f'.target = D.target ∧ f'.mapping = D.mapping ∧ f'.next.index = D.gates.map D.gateName ∧
      ∃ q' : Vec n, (∀ j, (∀ p x, D.Position s.1 p j → (p, some x) ∈ s.1 → q' j = x) ∧
          ((∀ p, ¬ D.Position s.1 p j) → q' j = q j)) ∧
        (∀ j, j ∉ D.gates → q' j = q j) ∧
        ∀ j, f'.suggest.lookup (D.gateName j) = if j ∈ D.gates then some (some (q' j)) else none := by
  classical
  let vals := rescaleValues D.target (SensingDot.sortIndex s.1)
  have hidx : ∀ l, l ∈ vals.index ↔ l ∈ s.1.index := fun l => SensingDot.mem_index_rescale
  have hmaps : ∀ p g, TargetOps.MapsTo t.solver vals p g ↔ p ∈ s.1.index ∧ D.mapping.lookup p = some (some g) := by
    intro p g
    unfold TargetOps.MapsTo
    rw [hidx, ht.mapping]
  have hmem : ∀ j, D.gateName j ∈ D.gates.map D.gateName ↔ j ∈ D.gates := by
    intro j
    rw [List.mem_map]
    constructor
    · rintro ⟨j', hj', he⟩
      rw [← hD.gates he]
      exact hj'
    · exact fun h => ⟨j, h, rfl⟩
  obtain ⟨f', hup, hi, hmapped, hrest⟩ := TargetOps.forwarding_position t.solver
    (by rw [ht.target]; exact hD.names) (labelled D.gateName (volts q)) vals vs
    (by
      intro g hg
      rw [ht.gates] at hg
      obtain ⟨j, -, rfl⟩ := List.mem_map.1 hg
      exact labelled_index _ _)
    (by
      intro p g h
      obtain ⟨h1, h2⟩ := (hmaps p g).1 h
      obtain ⟨j, hj, rfl⟩ := hs.position p g h1 h2
      rw [ht.gates]
      exact (hmem j).2 hj)
    (by
      intro p p' g h h'
      obtain ⟨h1, h2⟩ := (hmaps p g).1 h
      obtain ⟨h1', h2'⟩ := (hmaps p' g).1 h'
      obtain ⟨j, hj, rfl⟩ := hs.position p g h1 h2
      exact hs.once p p' j ⟨h1, h2⟩ ⟨h1', h2'⟩)
  have hfix := forwarding_fixed t.solver (labelled D.gateName (volts q)) vals vs
  rw [hup] at hfix
  have hnext : f'.next.index = D.gates.map D.gateName := hi.trans ht.gates
  have hval : ∀ p x, p ∈ s.1.index → (p, some x) ∈ s.1 → ∃ c, c ≠ 0 ∧ TargetOps.HasFactor D.target p c ∧
      vals.val p = some (x / c) := by
    intro p x hp hx
    obtain ⟨y, c, hy, hc, hf⟩ := hs.number p _ hx
    refine ⟨c, hc, hf, ?_⟩
    apply val_of_mem (sorted_nodup hs.nodup)
    rw [SensingDot.mem_rescale]
    exact ⟨some x, hx, by rw [hf.factor_eq hD.names, Val.div_some hc]⟩
  have hgate : ∀ j p x, D.Position s.1 p j → (p, some x) ∈ s.1 → f'.suggest.val (D.gateName j) = some x := by
    intro j p x hp hx
    obtain ⟨c, hc, hf, hv⟩ := hval p x hp.1 hx
    rw [hmapped p _ c ((hmaps _ _).2 hp) (by rw [ht.target]; exact hf), hv, Val.mul_some, div_mul_cancel₀ _ hc]
  have hkeep : ∀ j, j ∈ D.gates → (∀ p, ¬ D.Position s.1 p j) → f'.suggest.val (D.gateName j) = some (q j) := by
    intro j hj hno
    rw [hrest _ (by rw [ht.gates]; exact (hmem j).2 hj) (fun p hp => hno p ((hmaps _ _).1 hp))]
    exact val_ofFn D.gateName (volts q) hD.gates j
  let q' : Vec n := fun j => if j ∈ D.gates then (f'.suggest.val (D.gateName j)).getD 0 else q j
  refine ⟨f', hup, hfix.1.trans ht.target, hfix.2.trans ht.mapping, hnext, q', fun j => ⟨?_, ?_⟩, ?_, ?_⟩
  · intro p x hp hx
    obtain ⟨j', hj', he⟩ := hs.position p _ hp.1 hp.2
    have := hD.gates he
    subst this
    simp only [q', if_pos hj', hgate j p x hp hx, Option.getD_some]
  · intro hno
    by_cases hj : j ∈ D.gates
    · simp only [q', if_pos hj, hkeep j hj hno, Option.getD_some]
    · simp only [q', if_neg hj]
  · intro j hj
    simp only [q', if_neg hj]
  · intro j
    by_cases hj : j ∈ D.gates
    · rw [if_pos hj]
      have hin : D.gateName j ∈ f'.suggest.index := by
        have : f'.suggest.index = f'.next.index := rfl
        rw [this, hnext]
        exact (hmem j).2 hj
      have hsome := SensingDot.lookup_isSome_of_mem hin
      obtain ⟨x, hx⟩ := Option.isSome_iff_exists.1 hsome
      have hvx : f'.suggest.val (D.gateName j) = x := by simp [Series.val, hx]
      have hnum : ∃ y, x = some y := by
        by_cases hp : ∃ p, D.Position s.1 p j
        · obtain ⟨p, hp⟩ := hp
          obtain ⟨z, hz⟩ := mem_of_index hp.1
          obtain ⟨y, c, rfl, -, -⟩ := hs.number p z hz
          exact ⟨y, by rw [← hvx]; exact hgate j p y hp hz⟩
        · push Not at hp
          exact ⟨q j, by rw [← hvx]; exact hkeep j hj hp⟩
      obtain ⟨y, rfl⟩ := hnum
      rw [hx]
      simp only [q', if_pos hj, hvx, Option.getD_some]
    · rw [if_neg hj]
      have hin : D.gateName j ∉ f'.suggest.index := by
        have : f'.suggest.index = f'.next.index := rfl
        rw [this, hnext]
        exact fun h => hj ((hmem j).1 h)
      cases hl : f'.suggest.lookup (D.gateName j) with
      | none => rfl
      | some x =>
        exact absurd (TargetOps.mem_index_iff.2 (by rw [hl]; rfl)) hin

theorem Sensor.delivers {D : Sensor n} {outs : List Outcome} {s : Series × Series} (hs : D.Reports outs s)
    {t : SensingDot.SDTuner TargetOps.Forwarding (Fin n)}
    (hk : ∀ l ∈ s.1.index, l ∈ t.lastValues.index ∧ l ∈ t.lastVariances.index) :
    SensingDot.Delivers outs t s.1 s.2 :=
  ⟨hs.some_evaluator, hs.result, hk, hs.has_variance⟩

theorem Sensor.noneNaN {D : Sensor n} (hD : D.Valid) {outs : List Outcome} {s : Series × Series} (hs : D.Reports outs s) :
    SensingDot.NoneNaN D.target s.1 := by
  rintro l ⟨x, hx, h⟩
  obtain ⟨y, c, rfl, hc, hf⟩ := hs.number l x hx
  rw [hf.factor_eq hD.names, Val.div_some hc] at h
  cases h

/-- The evaluation of a sensitive dot. -/
theorem Sensor.tuned {D : Sensor n} (hD : D.Valid) {t : SensingDot.SDTuner TargetOps.Forwarding (Fin n)}
    (ht : D.Tuner t) {q : Vec n} (hq : D.Sensitive q) :
    ∃ t', (SensingDot.isTuned (forwarding D.gateName) (D.cheapOuts (volts q)) (D.expensiveOuts (volts q)) (volts q) t).1 = t' ∧
      (SensingDot.isTuned (forwarding D.gateName) (D.cheapOuts (volts q)) (D.expensiveOuts (volts q)) (volts q) t).2.2 = .ok true ∧
      D.Tuner t' := by
  have hT : (forwarding D.gateName).target t.solver = D.target := ht.target
  obtain ⟨lv, lvar, h1, h2, ⟨hn, -⟩ | ⟨hn, hm, h⟩ | ⟨hn, hm, -⟩⟩ := SensingDot.isTuned_cases (forwarding D.gateName)
    (D.cheapOuts (volts q)) (D.expensiveOuts (volts q)) (volts q) t _ _
    (D.delivers (hD.cheap q) fun l hl => ht.known q l (.inl hl))
  · rw [hT] at hn
    exact absurd (D.noneNaN hD (hD.cheap q)) hn
  · rw [h]
    refine ⟨_, rfl, rfl, ht.target, ht.mapping, ht.gates, fun q l hl => ?_⟩
    simp only [h1, h2]
    exact ht.known q l hl
  · rw [hT] at hm
    exact absurd hm hq

/-- The evaluation of a dot that is not sensitive, and the suggestion. -/
theorem Sensor.adjusted {D : Sensor n} (hD : D.Valid) {t : SensingDot.SDTuner TargetOps.Forwarding (Fin n)}
    (ht : D.Tuner t) {q : Vec n} (hq : ¬ D.Sensitive q) :
    ∃ t', (SensingDot.isTuned (forwarding D.gateName) (D.cheapOuts (volts q)) (D.expensiveOuts (volts q)) (volts q) t).1 = t' ∧
      (SensingDot.isTuned (forwarding D.gateName) (D.cheapOuts (volts q)) (D.expensiveOuts (volts q)) (volts q) t).2.2 = .ok false ∧
      D.Tuner t' ∧ ∃ q', D.Adjusts q q' ∧ (∀ j, j ∉ D.gates → q' j = q j) ∧
        ∀ tuned, SensingDot.nextVoltages (forwarding D.gateName) tuned t' =
          (t', .ok fun j => if j ∈ D.gates then some (some (q' j)) else none) := by
  have hT : (forwarding D.gateName).target t.solver = D.target := ht.target
  obtain ⟨lv, lvar, h1, h2, ⟨hn, -⟩ | ⟨hn, hm, -⟩ | ⟨hn, hm, h⟩⟩ := SensingDot.isTuned_cases (forwarding D.gateName)
    (D.cheapOuts (volts q)) (D.expensiveOuts (volts q)) (volts q) t _ _
    (D.delivers (hD.cheap q) fun l hl => ht.known q l (.inl hl))
  · rw [hT] at hn
    exact absurd (D.noneNaN hD (hD.cheap q)) hn
  · rw [hT] at hm
    exact absurd hm hq
  · rw [hT] at h
    rw [h]
    by_cases hcost : SensingDot.SomeAtOrBelow D.target Row.costThreshold (D.cheap q).1
    · let t₀ : SensingDot.SDTuner TargetOps.Forwarding (Fin n) := { t with
        lastVoltage := volts q, lastValues := lv, lastVariances := lvar, lastFailed := false, cheapOnly := false }
      have hk₀ : ∀ q l, l ∈ (D.cheap q).1.index ∨ l ∈ (D.expensive q).1.index →
          l ∈ t₀.lastValues.index ∧ l ∈ t₀.lastVariances.index := by
        intro q l hl
        simp only [t₀, h1, h2]
        exact ht.known q l hl
      have hdel := D.delivers (t := t₀) (hD.expensive q) fun l hl => hk₀ q l (.inr hl)
      obtain ⟨lv', ha, hi⟩ := SensingDot.assign_ok (s := lv)
        (p := rescaleValues D.target (SensingDot.sortIndex (D.expensive q).1))
        (fun l hl => (hk₀ q l (.inr (SensingDot.mem_index_rescale.1 hl))).1)
      obtain ⟨lvar', hb, hi'⟩ := SensingDot.assignVariances_ok (s := lvar)
        (p := rescaleValues D.target (SensingDot.sortIndex (D.expensive q).1))
        (v := rescaleVariances D.target (SensingDot.sortIndex (D.expensive q).2))
        (fun l hl => (hk₀ q l (.inr (SensingDot.mem_index_rescale.1 hl))).2)
        (fun l hl => SensingDot.mem_index_rescaleVar.2
          ((hD.expensive q).has_variance l (SensingDot.mem_index_rescale.1 hl)))
      obtain ⟨f', hf, hf1, hf2, hf3, q', hq', hout, hsug⟩ := D.forwarded hD ht q (hD.expensive q)
        (rescaleVariances D.target (SensingDot.sortIndex (D.expensive q).2))
      unfold SensingDot.maybeExpensive
      rw [if_pos ((SensingDot.anyLe_iff _ _ _).2 hcost), SensingDot.evaluate_eq hdel]
      simp only [ha, hb, hf]
      refine ⟨_, rfl, trivial, ⟨hf1, hf2, hf3, fun q l hl => ?_⟩, q', fun j => ?_, hout, fun tuned => ?_⟩
      · simp only [hi, hi', h1, h2]
        exact ht.known q l hl
      · unfold Sensor.scan
        rw [if_pos hcost]
        exact hq' j
      · unfold SensingDot.nextVoltages
        simp only [Bool.false_eq_true, if_false, forwarding, hsug]
    · obtain ⟨f', hf, hf1, hf2, hf3, q', hq', hout, hsug⟩ := D.forwarded hD ht q (hD.cheap q)
        (rescaleVariances D.target (SensingDot.sortIndex (D.cheap q).2))
      unfold SensingDot.maybeExpensive
      rw [if_neg (by rw [SensingDot.anyLe_iff]; exact hcost)]
      simp only [hf]
      refine ⟨_, rfl, trivial, ⟨hf1, hf2, hf3, fun q l hl => ?_⟩, q', fun j => ?_, hout, fun tuned => ?_⟩
      · simp only [h1, h2]
        exact ht.known q l hl
      · unfold Sensor.scan
        rw [if_neg hcost]
        exact hq' j
      · unfold SensingDot.nextVoltages
        simp only [Bool.false_eq_true, if_false, forwarding, hsug]

end Qtune.EndToEnd
