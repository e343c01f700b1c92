import Mathlib.Tactic.NormNum
import Verif.Evaluator.PassThruSpec

/-!
# Properties of the pass-through evaluator (C150)
-/

namespace Qtune.Evaluator.PassThru

variable {ω μ : Type}

/-! ## Auxiliary lemmas -/

theorem index_put (s : Series) (l : String) (v : Val) : (put s l v).index = s.index := by
  simp only [put, Series.index, List.map_map]
  congr 1
  funext p
  simp only [Function.comp]
  split <;> simp_all

theorem val_put_same {s : Series} {l : String} (h : l ∈ s.index) (v : Val) :
    (put s l v).val l = v := by
  induction s with
  | nil => simp [Series.index] at h
  | cons p s ih =>
    by_cases hp : p.1 = l
    · simp [put, Series.val, hp, List.lookup]
    · have hm : l ∈ Series.index s := by
        simp only [Series.index, List.map_cons, List.mem_cons] at h
        exact h.resolve_left fun h => hp h.symm
      have hb : (l == p.1) = false := by simpa using fun h => hp h.symm
      have := ih hm
      simp only [put, Series.val] at this ⊢
      simp only [List.map_cons, hp, if_false, List.lookup, hb]
      exact this

theorem val_put_other {s : Series} {l k : String} (h : k ≠ l) (v : Val) :
    (put s l v).val k = s.val k := by
  induction s with
  | nil => rfl
  | cons p s ih =>
    simp only [put, Series.val, List.map_cons] at ih ⊢
    by_cases hp : p.1 = l
    · have hk : (k == l) = false := by simpa using h
      have hk' : (k == p.1) = false := by rw [hp]; exact hk
      simp only [hp, if_pos, List.lookup, hk]
      exact ih
    · simp only [hp, if_false, List.lookup]
      split
      · rfl
      · exact ih

/-- What `addResult` adds. -/
noncomputable def reading (name : String) (r : List Val) : List (Val × Val) :=
  (List.range (numberOf name r)).map fun i => ((r[i]?).join, qualityOf name r i)

theorem join_getElem (r : List Val) (n : Nat) (h : n ≤ r.length) :
    (List.range n).map (fun i => (r[i]?).join) = r.take n := by
  apply List.ext_getElem?
  intro i
  by_cases hi : i < n
  · have : i < r.length := lt_of_lt_of_le hi h
    simp [hi, List.getElem?_take, this]
  · simp [hi, List.getElem?_take]

theorem respResidual_eq (v : Val) :
    respResidual v = Option.filter (fun q => open Classical in decide ((1e-8 : ℝ) < |q|)) v := by
  cases v with
  | none => rfl
  | some x =>
    simp only [respResidual, Option.filter]
    by_cases h : |x| ≤ 1e-8
    · rw [if_pos h, if_neg (by simpa using h)]
    · rw [if_neg h, if_pos (by simpa using h)]

theorem addResult_eq (acc : Acc) (name : String) (r : List Val) (hr : LongEnough name r)
    (hn : name ≠ "line") : ∃ acc', addResult acc name r = .ok acc' ∧
      acc'.values = acc.values ++ (reading name r).map Prod.fst ∧
      acc'.residuals = acc.residuals ++ (reading name r).map Prod.snd ∧
      acc'.variances = acc.variances := by
  unfold addResult
  simp only [reading, List.map_map, Function.comp_def]
  by_cases h1 : name = "lead"
  · have h := hr.1 h1
    obtain ⟨last, hl⟩ : ∃ last, r.getLast? = some last := by
      cases hlast : r.getLast? with
      | none => simp [List.getLast?_eq_none_iff] at hlast; simp [hlast] at h
      | some l => exact ⟨l, rfl⟩
    simp only [h1, if_pos, hl]
    refine ⟨_, rfl, ?_, ?_, rfl⟩
    · simp only [numberOf, if_pos]
      rw [join_getElem _ _ (Nat.sub_le _ _), List.dropLast_eq_take]
    · simp only [numberOf, if_pos, qualityOf]
      rw [List.getLast?_eq_getElem?] at hl
      simp [hl, List.map_const']
  · by_cases h3 : name = "resp"
    · have h := hr.2.2 h3
      have e4 : r[4]? = some r[4] := by simp
      have e5 : r[5]? = some r[5] := by simp
      have e6 : r[6]? = some r[6] := by simp
      have e7 : r[7]? = some r[7] := by simp
      have hne : ¬ "resp" = "lead" := by decide
      have hne' : ¬ "resp" = "line" := by decide
      simp only [h3, if_neg hne, if_neg hne', if_pos, e4, e5, e6, e7]
      refine ⟨_, rfl, ?_, ?_, rfl⟩
      · simp only [numberOf, if_neg hne, if_neg hne', if_pos]
        rw [join_getElem _ _ (by omega)]
      · simp only [numberOf, if_neg hne, if_neg hne', if_pos, qualityOf, respResidual_eq]
        simp [List.range_succ, e4, e5, e6, e7]
    · simp only [if_neg h1, if_neg hn, if_neg h3]
      refine ⟨_, rfl, ?_, ?_, rfl⟩
      · simp only [numberOf, if_neg h1, if_neg hn, if_neg h3]
        rw [join_getElem _ _ le_rfl, List.take_length]
      · simp only [numberOf, if_neg h1, if_neg hn, if_neg h3, qualityOf]
        simp [List.map_const']

theorem readings_cons (name : μ → String) (m : μ) (ms : List μ) (r : List Val)
    (rs : List (List Val)) :
    readings name (m :: ms) (r :: rs) = reading (name m) r ++ readings name ms rs := by
  simp [readings, reading]

theorem collect_eq (name : μ → String) (x : Exp ω μ) (f : ω → String) (hf : x.lastFile = some f)
    {w w' : ω} {ms : List μ} {rs : List (List Val)} (h : Ran x w ms rs w')
    (hl : ∀ mr ∈ ms.zip rs, LongEnough (name mr.1) mr.2) (hn : ∀ m ∈ ms, name m ≠ "line")
    (acc : Acc) (files : List String) : ∃ acc' files', collect name x w ms acc files = (w', files', .ok acc') ∧
      acc'.values = acc.values ++ (readings name ms rs).map Prod.fst ∧
      acc'.residuals = acc.residuals ++ (readings name ms rs).map Prod.snd := by
  induction h generalizing acc files with
  | nil w => exact ⟨acc, files, rfl, by simp [readings], by simp [readings]⟩
  | @cons w w1 w2 m ms r rs h hs ih =>
    obtain ⟨a1, e1, e2, e3, -⟩ := addResult_eq acc (name m) r (hl (m, r) (by simp))
      (hn m List.mem_cons_self)
    obtain ⟨a2, fs, e4, e5, e6⟩ := ih (fun mr hmr => hl mr (by simp [hmr]))
      (fun m hm => hn m (List.mem_cons_of_mem _ hm)) a1 (files ++ [f w1])
    refine ⟨a2, fs, ?_, ?_, ?_⟩
    · simp only [collect, h, hf, e1]
      exact e4
    · rw [e5, e2, readings_cons, List.map_append, List.append_assoc]
    · rw [e6, e3, readings_cons, List.map_append, List.append_assoc]

theorem scaled_eq {err ref : Series} {p : String} (he : p ∈ err.index) (hr : p ∈ ref.index)
    (q : Val) : scaled err ref p q = .ok (varianceOf (err.val p) (ref.val p) q) := by
  have key : ∀ s : Series, p ∈ s.index → s.lookup p = some (s.val p) := by
    intro s hs
    induction s with
    | nil => simp [Series.index] at hs
    | cons a s ih =>
      simp only [Series.val, List.lookup]
      by_cases h : p = a.1
      · simp [h]
      · have hb : (p == a.1) = false := by simpa using h
        simp only [hb]
        exact ih (by simpa [Series.index, h] using hs)
  unfold scaled varianceOf
  rw [key err he, key ref hr]
  cases q with
  | none => simp
  | some y => cases hv : ref.val p <;> simp

theorem deal_eq (err ref : Series) (ps : List String) (hps : ps.Nodup)
    (he : ∀ p ∈ ps, p ∈ err.index) (hr : ∀ p ∈ ps, p ∈ ref.index) (L : List (Val × Val))
    (result error : Series) (h1 : ∀ p ∈ ps, p ∈ result.index) (h2 : ∀ p ∈ ps, p ∈ error.index) :
    ∃ res er, deal err ref ps (L.map Prod.fst) (L.map Prod.snd) result error = .ok (res, er) ∧
      res.index = result.index ∧ er.index = error.index ∧
      (∀ p, p ∉ ps → res.val p = result.val p ∧ er.val p = error.val p) ∧
      ∀ (i : Nat) (p : String), ps[i]? = some p →
        res.val p = (match L[i]? with | some v => v.1 | none => result.val p) ∧
        er.val p = (match L[i]? with
          | some v => varianceOf (err.val p) (ref.val p) v.2
          | none => error.val p) := by
  induction ps generalizing L result error with
  | nil => exact ⟨result, error, rfl, rfl, rfl, fun _ _ => ⟨rfl, rfl⟩, fun i p h => by simp at h⟩
  | cons p ps ih =>
    cases L with
    | nil =>
      exact ⟨result, error, rfl, rfl, rfl, fun _ _ => ⟨rfl, rfl⟩, fun i p h => by simp⟩
    | cons v L =>
      obtain ⟨hp, hps'⟩ := List.nodup_cons.1 hps
      obtain ⟨res, er, e1, e2, e3, e4, e5⟩ := ih hps'
        (fun q hq => he q (List.mem_cons_of_mem _ hq)) (fun q hq => hr q (List.mem_cons_of_mem _ hq))
        L (put result p v.1) (put error p (varianceOf (err.val p) (ref.val p) v.2))
        (fun q hq => by rw [index_put]; exact h1 q (List.mem_cons_of_mem _ hq))
        (fun q hq => by rw [index_put]; exact h2 q (List.mem_cons_of_mem _ hq))
      refine ⟨res, er, ?_, ?_, ?_, ?_, ?_⟩
      · simp only [List.map_cons, deal,
          scaled_eq (he p List.mem_cons_self) (hr p List.mem_cons_self)]
        exact e1
      · rw [e2, index_put]
      · rw [e3, index_put]
      · intro q hq
        rw [List.mem_cons, not_or] at hq
        rw [(e4 q hq.2).1, (e4 q hq.2).2, val_put_other hq.1, val_put_other hq.1]
        exact ⟨rfl, rfl⟩
      · intro i q hi
        cases i with
        | zero =>
          simp only [List.getElem?_cons_zero, Option.some.injEq] at hi
          subst hi
          rw [(e4 p hp).1, (e4 p hp).2, val_put_same (h1 p List.mem_cons_self),
            val_put_same (h2 p List.mem_cons_self)]
          exact ⟨rfl, rfl⟩
        | succ i =>
          simp only [List.getElem?_cons_succ] at hi ⊢
          have hq : q ≠ p := by
            rintro rfl
            exact hp (List.mem_of_getElem? hi)
          have := e5 i q hi
          rw [val_put_other hq, val_put_other hq] at this
          exact this

theorem run_eq (name : μ → String) (x : Exp ω μ) (f : ω → String) (hf : x.lastFile = some f)
    (w w' : ω) (ev : PT μ) (err : Series) (rs : List (List Val))
    (h : Ran x w ev.measurements rs w') (hne : ev.measurements ≠ [])
    (hl : ∀ mr ∈ ev.measurements.zip rs, LongEnough (name mr.1) mr.2)
    (hn : ∀ m ∈ ev.measurements, name m ≠ "line") (hp : ev.params.Nodup)
    (he : ∀ p ∈ ev.params, p ∈ err.index) (hr : ∀ p ∈ ev.params, p ∈ ev.reference.index) :
    ∃ ev' result variances, run name x w ev err = (w', ev', .ok (result, variances)) ∧
      ev'.params = ev.params ∧ ev'.measurements = ev.measurements ∧
      ev'.reference = ev.reference ∧ ev'.error = ev.error ∧
      result.index = ev.params ∧ variances.index = ev.params ∧
      ∀ (i : Nat) (p : String), ev.params[i]? = some p →
        result.val p = (match (readings name ev.measurements rs)[i]? with
          | some v => v.1 | none => none) ∧
        variances.val p = (match (readings name ev.measurements rs)[i]? with
          | some v => varianceOf (err.val p) (ev.reference.val p) v.2
          | none => none) := by
  obtain ⟨acc, files, e1, e2, e3⟩ := collect_eq name x f hf h hl hn {} []
  obtain ⟨m, hm⟩ : ∃ m, ev.measurements.getLast? = some m := by
    cases hlast : ev.measurements.getLast? with
    | none => exact absurd (List.getLast?_eq_none_iff.1 hlast) hne
    | some m => exact ⟨m, rfl⟩
  have hmn : name m ≠ "line" := hn m (List.mem_of_getLast? hm)
  have hi : ∀ p ∈ ev.params, p ∈ Series.index (ev.params.map fun p => (p, (none : Val))) := by
    intro p hp
    rw [Series.index_map_mk ev.params fun _ => none]
    exact hp
  obtain ⟨res, er, d1, d2, d3, -, d5⟩ := deal_eq err ev.reference ev.params hp he hr
    (readings name ev.measurements rs) (ev.params.map fun p => (p, none))
    (ev.params.map fun p => (p, none)) hi hi
  have hnone : ∀ p, Series.val (ev.params.map fun p => (p, (none : Val))) p = none := by
    intro p
    rw [Series.val_map_mk ev.params fun _ => none]
    split <;> rfl
  refine ⟨{ ev with files := files, count := ev.count + 1, rawX := [ev.count],
                    rawY := res.map Prod.snd }, res, er, ?_, rfl, rfl, rfl, rfl, ?_, ?_, ?_⟩
  · unfold run
    have e2' : acc.values = (readings name ev.measurements rs).map Prod.fst := by simpa using e2
    have e3' : acc.residuals = (readings name ev.measurements rs).map Prod.snd := by simpa using e3
    simp only [e1, hm, if_neg hmn, e2', e3', d1]
  · rw [d2, Series.index_map_mk ev.params fun _ => none]
  · rw [d3, Series.index_map_mk ev.params fun _ => none]
  · intro i p hip
    have := d5 i p hip
    rw [hnone p] at this
    exact this

theorem reported_of {err ref : Series} {params : List String} {L : List (Val × Val)}
    {result variances : Series} (h1 : result.index = params) (h2 : variances.index = params)
    (h : ∀ (i : Nat) (p : String), params[i]? = some p →
      result.val p = (match L[i]? with | some v => v.1 | none => none) ∧
      variances.val p = (match L[i]? with
        | some v => varianceOf (err.val p) (ref.val p) v.2
        | none => none)) :
    ReportedAs params (withVariances err ref params L) result variances := by
  refine ⟨h1, h2, fun i p hi => ?_⟩
  have := h i p hi
  rw [this.1, this.2]
  simp only [withVariances, List.getElem?_map]
  cases hL : L[i]? with
  | none =>
    have hz : (params.zip L)[i]? = none := by
      rw [List.getElem?_eq_none_iff] at hL ⊢
      rw [List.length_zip]
      omega
    simp [hz]
  | some v =>
    have hz : (params.zip L)[i]? = some (p, v) := by
      rw [List.getElem?_zip_eq_some]
      exact ⟨hi, hL⟩
    simp [hz]

/-! ## The properties -/

/-- An evaluator without 'line' measurements whose variances are known, of an experiment that
knows the names of its files: every parameter is reported with the value that was measured for
it, and with its variance. -/
theorem pass_thru_partial (name : μ → String) (x : Exp ω μ) (f : ω → String)
    (hf : x.lastFile = some f) (w w' : ω) (ev : PT μ) (err : Series) (hev : ev.error = some err)
    (rs : List (List Val)) (h : Ran x w ev.measurements rs w') (hne : ev.measurements ≠ [])
    (hl : ∀ mr ∈ ev.measurements.zip rs, LongEnough (name mr.1) mr.2)
    (hn : ∀ m ∈ ev.measurements, name m ≠ "line") (hp : ev.params.Nodup)
    (he : ∀ p ∈ ev.params, p ∈ err.index) (hr : ∀ p ∈ ev.params, p ∈ ev.reference.index) :
    ∃ ev' result variances, evaluate name x w ev = (w', ev', .ok (result, variances)) ∧
      ReportedAs ev.params
        (withVariances err ev.reference ev.params (readings name ev.measurements rs))
        result variances := by
  obtain ⟨ev', res, var, e1, -, -, -, -, e2, e3, e4⟩ :=
    run_eq name x f hf w w' ev err rs h hne hl hn hp he hr
  refine ⟨ev', res, var, ?_, reported_of e2 e3 e4⟩
  simp only [evaluate, hev]
  exact e1

theorem repeats_eq (name : μ → String) (x : Exp ω μ) (f : ω → String) (hf : x.lastFile = some f)
    (err : Series) {w w' : ω} (ev : PT μ) (rss : List (List (List Val)))
    (h : RanTimes x ev.measurements w rss w') (hne : ev.measurements ≠ [])
    (hl : ∀ rs ∈ rss, ∀ mr ∈ ev.measurements.zip rs, LongEnough (name mr.1) mr.2)
    (hn : ∀ m ∈ ev.measurements, name m ≠ "line") (hp : ev.params.Nodup)
    (he : ∀ p ∈ ev.params, p ∈ err.index) (hr : ∀ p ∈ ev.params, p ∈ ev.reference.index)
    (acc : List Series) :
    ∃ ev' rows, repeats name x err rss.length w ev acc = (w', ev', .ok (acc ++ rows)) ∧
      ev'.params = ev.params ∧ ev'.measurements = ev.measurements ∧
      ev'.reference = ev.reference ∧
      ∀ (i : Nat) (p : String), ev.params[i]? = some p → rows.map (fun r => r.val p) =
        rss.map fun rs => (((readings name ev.measurements rs)[i]?).map Prod.fst).join := by
  generalize hms : ev.measurements = ms at h
  induction h generalizing ev acc with
  | nil w => exact ⟨ev, [], by simp [repeats], rfl, hms, rfl, by simp⟩
  | @cons w w1 w2 rs rss h hs ih =>
    subst hms
    obtain ⟨ev1, res, var, e1, p1, p2, p3, -, e2, e3, e4⟩ :=
      run_eq name x f hf w w1 ev err rs h hne (hl rs List.mem_cons_self) hn hp he hr
    obtain ⟨ev2, rows, f1, f2, f3, f4, f5⟩ := ih ev1 (by rw [p2]; exact hne)
      (by rw [p2]; exact fun r hr => hl r (List.mem_cons_of_mem _ hr)) (by rw [p2]; exact hn)
      (by rw [p1]; exact hp) (by rw [p1]; exact he) (by rw [p1, p3]; exact hr) (acc ++ [res]) p2
    refine ⟨ev2, res :: rows, ?_, f2.trans p1, f3, f4.trans p3, ?_⟩
    · simp only [List.length_cons, repeats, e1]
      rw [f1, List.append_assoc, List.singleton_append]
    · intro i p hi
      rw [List.map_cons, List.map_cons, f5 i p (by rw [p1]; exact hi), (e4 i p hi).1]
      congr 1
      cases (readings name ev.measurements rs)[i]? <;> rfl

/-- If the variances are not known, the measurements are made eight times first, and the
variance of a parameter is the sample variance of the eight values that were measured for it. -/
theorem first_evaluation_partial (name : μ → String) (x : Exp ω μ) (f : ω → String)
    (hf : x.lastFile = some f) (w w1 w' : ω) (ev : PT μ) (hev : ev.error = none)
    (rss : List (List (List Val))) (h8 : rss.length = 8)
    (hrep : RanTimes x ev.measurements w rss w1) (rs : List (List Val))
    (h : Ran x w1 ev.measurements rs w') (hne : ev.measurements ≠ [])
    (hl : ∀ rs' ∈ rs :: rss, ∀ mr ∈ ev.measurements.zip rs', LongEnough (name mr.1) mr.2)
    (hn : ∀ m ∈ ev.measurements, name m ≠ "line") (hp : ev.params.Nodup)
    (hr : ∀ p ∈ ev.params, p ∈ ev.reference.index) :
    ∃ ev' result variances err, evaluate name x w ev = (w', ev', .ok (result, variances)) ∧
      ev'.error = some err ∧
      (∀ (i : Nat) (p : String), ev.params[i]? = some p → err.val p = sampleVariance
        (rss.map fun rs' => (((readings name ev.measurements rs')[i]?).map Prod.fst).join)) ∧
      ReportedAs ev.params
        (withVariances err ev.reference ev.params (readings name ev.measurements rs))
        result variances := by
  let nan : Series := ev.params.map fun p => (p, none)
  have hnan : ∀ p ∈ ev.params, p ∈ nan.index := by
    intro p hp
    show p ∈ Series.index (ev.params.map fun p => (p, (none : Val)))
    rw [Series.index_map_mk ev.params fun _ => none]
    exact hp
  obtain ⟨ev1, rows, f1, f2, f3, f4, f5⟩ := repeats_eq name x f hf nan { ev with error := some nan }
    rss hrep hne (fun rs' h => hl rs' (List.mem_cons_of_mem _ h)) hn hp hnan hr []
  rw [h8] at f1
  have f1' : repeats name x (ev.params.map fun p => (p, none)) 8 w
      { ev with error := some (ev.params.map fun p => (p, none)) } [] =
      (w1, ev1, .ok ([] ++ rows)) := f1
  let err : Series := ev.params.map fun p => (p, columnVar (rows.map fun r => r.val p))
  have herr : err.index = ev.params :=
    Series.index_map_mk ev.params fun p => columnVar (rows.map fun r => r.val p)
  obtain ⟨ev', res, var, e1, p1, p2, p3, p4, e2, e3, e4⟩ :=
    run_eq name x f hf w1 w' { ev1 with error := some err } err rs (by show Ran x w1 ev1.measurements _ _; rw [f3]; exact h)
      (by show ev1.measurements ≠ []; rw [f3]; exact hne)
      (by show ∀ mr ∈ ev1.measurements.zip rs, _; rw [f3]; exact hl rs List.mem_cons_self)
      (by show ∀ m ∈ ev1.measurements, _; rw [f3]; exact hn)
      (by show ev1.params.Nodup; rw [f2]; exact hp)
      (by show ∀ p ∈ ev1.params, p ∈ err.index; rw [f2, herr]; exact fun p h => h)
      (by show ∀ p ∈ ev1.params, p ∈ ev1.reference.index; rw [f2, f4]; exact hr)
  refine ⟨ev', res, var, err, ?_, p4, ?_, ?_⟩
  · simp only [evaluate, hev, evaluateError, f1', List.nil_append]
    exact e1
  · intro i p hi
    have hmem : p ∈ ev.params := List.mem_of_getElem? hi
    have : err.val p = columnVar (rows.map fun r => r.val p) := by
      show Series.val (ev.params.map fun p => (p, columnVar (rows.map fun r => r.val p))) p = _
      rw [Series.val_map_mk ev.params fun p => columnVar (rows.map fun r => r.val p), if_pos hmem]
    rw [this, f5 i p hi]
    rfl
  · simp only [f2, f3, f4] at e2 e3 e4
    exact reported_of e2 e3 e4

theorem collect_lines (name : μ → String) (x : Exp ω μ) (f : ω → String) (hf : x.lastFile = some f)
    {w w' : ω} {ms : List μ} {rs : List (List Val)} (h : Ran x w ms rs w')
    (hl : ∀ r ∈ rs, 2 ≤ r.length) (hn : ∀ m ∈ ms, name m = "line")
    (acc : Acc) (files : List String) : ∃ acc' files',
      collect name x w ms acc files = (w', files', .ok acc') ∧
      acc'.values = acc.values ++ rs.map (fun r => (r[0]?).join) ∧
      acc'.variances = acc.variances ++ rs.map (fun r => (r[1]?).join) := by
  induction h generalizing acc files with
  | nil w => exact ⟨acc, files, rfl, by simp, by simp⟩
  | @cons w w1 w2 m ms r rs h hs ih =>
    have h2 := hl r List.mem_cons_self
    have e0 : r[0]? = some r[0] := by simp
    have e1 : r[1]? = some r[1] := by simp
    obtain ⟨a2, fs, e4, e5, e6⟩ := ih (fun r hr => hl r (List.mem_cons_of_mem _ hr))
      (fun m hm => hn m (List.mem_cons_of_mem _ hm))
      { values := acc.values ++ [r[0]], variances := acc.variances ++ [r[1]]
        residuals := acc.residuals ++ List.replicate r.length none } (files ++ [f w1])
    have ha : addResult acc (name m) r = .ok {
        values := acc.values ++ [r[0]], variances := acc.variances ++ [r[1]],
        residuals := acc.residuals ++ List.replicate r.length none } := by
      have hne : ¬ "line" = "lead" := by decide
      simp only [addResult, hn m List.mem_cons_self, if_neg hne, if_pos, e0, e1]
    refine ⟨a2, fs, ?_, ?_, ?_⟩
    · simp only [collect, h, hf, ha]
      exact e4
    · rw [e5, List.map_cons, e0, List.append_assoc, List.singleton_append]; rfl
    · rw [e6, List.map_cons, e1, List.append_assoc, List.singleton_append]; rfl

theorem dealLine_eq (ps : List String) (hps : ps.Nodup) (L : List (Val × Val))
    (result error : Series) (h1 : ∀ p ∈ ps, p ∈ result.index) (h2 : ∀ p ∈ ps, p ∈ error.index) :
    ∃ res er, dealLine ps (L.map Prod.fst) (L.map Prod.snd) result error = (res, er) ∧
      res.index = result.index ∧ er.index = error.index ∧
      (∀ p, p ∉ ps → res.val p = result.val p ∧ er.val p = error.val p) ∧
      ∀ (i : Nat) (p : String), ps[i]? = some p →
        res.val p = (match L[i]? with | some v => v.1 | none => result.val p) ∧
        er.val p = (match L[i]? with | some v => v.2 | none => error.val p) := by
  induction ps generalizing L result error with
  | nil => exact ⟨result, error, rfl, rfl, rfl, fun _ _ => ⟨rfl, rfl⟩, fun i p h => by simp at h⟩
  | cons p ps ih =>
    cases L with
    | nil =>
      exact ⟨result, error, rfl, rfl, rfl, fun _ _ => ⟨rfl, rfl⟩, fun i p h => by simp⟩
    | cons v L =>
      obtain ⟨hp, hps'⟩ := List.nodup_cons.1 hps
      obtain ⟨res, er, e1, e2, e3, e4, e5⟩ := ih hps' L (put result p v.1) (put error p v.2)
        (fun q hq => by rw [index_put]; exact h1 q (List.mem_cons_of_mem _ hq))
        (fun q hq => by rw [index_put]; exact h2 q (List.mem_cons_of_mem _ hq))
      refine ⟨res, er, e1, by rw [e2, index_put], by rw [e3, index_put], ?_, ?_⟩
      · intro q hq
        rw [List.mem_cons, not_or] at hq
        rw [(e4 q hq.2).1, (e4 q hq.2).2, val_put_other hq.1, val_put_other hq.1]
        exact ⟨rfl, rfl⟩
      · intro i q hi
        cases i with
        | zero =>
          simp only [List.getElem?_cons_zero, Option.some.injEq] at hi
          subst hi
          rw [(e4 p hp).1, (e4 p hp).2, val_put_same (h1 p List.mem_cons_self),
            val_put_same (h2 p List.mem_cons_self)]
          exact ⟨rfl, rfl⟩
        | succ i =>
          simp only [List.getElem?_cons_succ] at hi ⊢
          have hq : q ≠ p := by
            rintro rfl
            exact hp (List.mem_of_getElem? hi)
          have := e5 i q hi
          rw [val_put_other hq, val_put_other hq] at this
          exact this

/-- An evaluator that has only 'line' measurements: every parameter is reported with the value
and the variance that its measurement returned. -/
theorem pass_thru_lines_partial (name : μ → String) (x : Exp ω μ) (f : ω → String)
    (hf : x.lastFile = some f) (w w' : ω) (ev : PT μ) (err : Series) (hev : ev.error = some err)
    (rs : List (List Val)) (h : Ran x w ev.measurements rs w') (hne : ev.measurements ≠ [])
    (hl : ∀ r ∈ rs, 2 ≤ r.length) (hn : ∀ m ∈ ev.measurements, name m = "line")
    (hp : ev.params.Nodup) :
    ∃ ev' result variances, evaluate name x w ev = (w', ev', .ok (result, variances)) ∧
      ReportedAs ev.params (rs.map fun r => ((r[0]?).join, (r[1]?).join)) result variances := by
  obtain ⟨acc, files, e1, e2, e3⟩ := collect_lines name x f hf h hl hn {} []
  obtain ⟨m, hm⟩ : ∃ m, ev.measurements.getLast? = some m := by
    cases hlast : ev.measurements.getLast? with
    | none => exact absurd (List.getLast?_eq_none_iff.1 hlast) hne
    | some m => exact ⟨m, rfl⟩
  have hmn : name m = "line" := hn m (List.mem_of_getLast? hm)
  have hi : ∀ p ∈ ev.params, p ∈ Series.index (ev.params.map fun p => (p, (none : Val))) := by
    intro p hp
    rw [Series.index_map_mk ev.params fun _ => none]
    exact hp
  obtain ⟨res, er, d1, d2, d3, -, d5⟩ := dealLine_eq ev.params hp
    (rs.map fun r => ((r[0]?).join, (r[1]?).join)) (ev.params.map fun p => (p, none))
    (ev.params.map fun p => (p, none)) hi hi
  have hnone : ∀ p, Series.val (ev.params.map fun p => (p, (none : Val))) p = none := by
    intro p
    rw [Series.val_map_mk ev.params fun _ => none]
    split <;> rfl
  refine ⟨{ ev with files := files, count := ev.count + 1, rawX := [ev.count],
                    rawY := res.map Prod.snd }, res, er, ?_, ?_, ?_, ?_⟩
  · simp only [evaluate, hev, run, e1, hm, hmn, if_pos]
    have e2' : acc.values = (rs.map fun r => ((r[0]?).join, (r[1]?).join)).map Prod.fst := by
      rw [e2, List.map_map]; rfl
    have e3' : acc.variances = (rs.map fun r => ((r[0]?).join, (r[1]?).join)).map Prod.snd := by
      rw [e3, List.map_map]; rfl
    simp only [e2', e3', d1]
  · rw [d2, Series.index_map_mk ev.params fun _ => none]
  · rw [d3, Series.index_map_mk ev.params fun _ => none]
  · intro i p hip
    have := d5 i p hip
    rw [hnone p] at this
    rw [this.1, this.2]
    cases (rs.map fun r => ((r[0]?).join, (r[1]?).join))[i]? <;> exact ⟨rfl, rfl⟩

/-- The only experiment of the quadruple dot in the project, SMTuneQQD, has no method
`get_last_file_name`: every evaluation raises `AttributeError` after the first measurement. -/
theorem pass_thru_refuted (name : μ → String) (x : Exp ω μ) (hx : x.lastFile = none) (w : ω)
    (ev : PT μ) (m : μ) (ms : List μ) (hm : ev.measurements = m :: ms) (w' : ω) (r : List Val)
    (h : x.measure w m = (w', .ok r)) :
    ∃ ev', evaluate name x w ev = (w', ev', .error .attributeError) := by
  cases hev : ev.error with
  | some err =>
    exact ⟨{ ev with files := [] }, by simp [evaluate, hev, run, hm, collect, h, hx]⟩
  | none =>
    exact ⟨{ ev with files := [], error := some (ev.params.map fun p => (p, none)) }, by
      simp [evaluate, hev, evaluateError, repeats, run, hm, collect, h, hx]⟩

/-- A 'line' measurement after another one: the first parameter is reported with the variance
of the second one, and the second parameter is NaN although it was measured. -/
theorem line_last_refuted (name : μ → String) (x : Exp ω μ) (f : ω → String)
    (hf : x.lastFile = some f) (w w1 w2 : ω) (ev : PT μ) (err : Series) (hev : ev.error = some err)
    (m1 m2 : μ) (hm : ev.measurements = [m1, m2]) (h1 : name m1 = "chrg") (h2 : name m2 = "line")
    (p q : String) (hpq : p ≠ q) (hp : ev.params = [p, q]) (a b s : ℝ)
    (hr1 : x.measure w m1 = (w1, .ok [some a])) (hr2 : x.measure w1 m2 = (w2, .ok [some b, some s])) :
    ∃ ev' result variances, evaluate name x w ev = (w2, ev', .ok (result, variances)) ∧
      result.val p = some a ∧ variances.val p = some s ∧ result.val q = none ∧
      variances.val q = none := by
  have hqp : ¬ q = p := fun h => hpq h.symm
  refine ⟨{ ev with
      files := [f w1, f w2], count := ev.count + 1, rawX := [ev.count], rawY := [some a, none] },
    [(p, some a), (q, none)], [(p, some s), (q, none)], ?_, ?_⟩
  rotate_left
  · simp [Series.val, List.lookup, beq_eq_false_iff_ne.2 hqp]
  simp [evaluate, hev, run, hm, collect, hr1, hr2, hf, addResult, h1, h2, hp, dealLine, put, hqp]

/-- A 'line' measurement before another one: its variance is not used, and the residuals of the
next measurement are assigned to the wrong parameter, so that the variance is not scaled. -/
theorem line_first_refuted (name : μ → String) (x : Exp ω μ) (f : ω → String)
    (hf : x.lastFile = some f) (w w1 w2 : ω) (ev : PT μ) (m1 m2 : μ)
    (hm : ev.measurements = [m1, m2]) (h1 : name m1 = "line") (h2 : name m2 = "lead")
    (p q : String) (hpq : p ≠ q) (hp : ev.params = [p, q]) (a b s res ep eq : ℝ)
    (hev : ev.error = some [(p, some ep), (q, some eq)])
    (href : ev.reference = [(p, some 1), (q, some 1)])
    (hr1 : x.measure w m1 = (w1, .ok [some b, some s]))
    (hr2 : x.measure w1 m2 = (w2, .ok [some a, some res])) :
    ∃ ev' result variances, evaluate name x w ev = (w2, ev', .ok (result, variances)) ∧
      result.val p = some b ∧ variances.val p = some ep ∧ result.val q = some a ∧
      variances.val q = some eq ∧
      varianceOf (some eq) (some 1) (some res) = some (eq * res) := by
  have hqp : ¬ q = p := fun h => hpq h.symm
  refine ⟨{ ev with
      files := [f w1, f w2], count := ev.count + 1, rawX := [ev.count], rawY := [some b, some a] },
    [(p, some b), (q, some a)], [(p, some ep), (q, some eq)], ?_, ?_⟩
  rotate_left
  · simp [Series.val, List.lookup, beq_eq_false_iff_ne.2 hqp, varianceOf, Val.div]
  simp [evaluate, hev, run, hm, collect, hr1, hr2, hf, addResult, h1, h2, hp, deal, put, hpq, hqp,
    scaled, List.lookup, beq_eq_false_iff_ne.2 hqp]

/-- If one of the eight measurements for the estimate of the variances raises, the evaluator
takes the variances for known from then on: all later evaluations report NaN. -/
theorem interrupted_estimate_refuted (name : μ → String) (x : Exp ω μ) (f : ω → String)
    (hf : x.lastFile = some f) (w w1 : ω) (ev : PT μ) (hev : ev.error = none) (m : μ)
    (ms : List μ) (hm : ev.measurements = m :: ms) (e : PyErr)
    (hfail : x.measure w m = (w1, .error e)) (hn : ∀ m ∈ ev.measurements, name m ≠ "line")
    (hp : ev.params.Nodup) (hr : ∀ p ∈ ev.params, p ∈ ev.reference.index) :
    ∃ ev1, evaluate name x w ev = (w1, ev1, .error e) ∧
      ∀ w2 w3 rs, Ran x w2 ev.measurements rs w3 →
        (∀ mr ∈ ev.measurements.zip rs, LongEnough (name mr.1) mr.2) →
        ∃ ev2 result variances, evaluate name x w2 ev1 = (w3, ev2, .ok (result, variances)) ∧
          ∀ p ∈ ev.params, variances.val p = none := by
  refine ⟨{ ev with files := [], error := some (ev.params.map fun p => (p, none)) },
    by simp [evaluate, hev, evaluateError, repeats, run, hm, collect, hfail], ?_⟩
  intro w2 w3 rs h hl
  have hnan : Series.index (ev.params.map fun p => (p, (none : Val))) = ev.params :=
    Series.index_map_mk ev.params fun _ => none
  obtain ⟨ev2, res, var, e1, -, -, -, -, e2, e3, e4⟩ := run_eq name x f hf w2 w3
    { ev with files := [], error := some (ev.params.map fun p => (p, none)) }
    (ev.params.map fun p => (p, none)) rs h (by show ev.measurements ≠ []; simp [hm]) hl hn hp
    (by rw [hnan]; exact fun p h => h) hr
  refine ⟨ev2, res, var, by simp only [evaluate]; exact e1, ?_⟩
  intro p hmem
  obtain ⟨i, hi⟩ := List.getElem?_of_mem hmem
  rw [(e4 i p hi).2, Series.val_map_mk ev.params fun _ => none, if_pos hmem]
  cases (readings name ev.measurements rs)[i]? with
  | none => rfl
  | some v =>
    simp only [varianceOf]
    split <;> simp

/-! ## A concrete evaluator -/

/-- A 'lead' measurement with two values and the residual 6, and other measurements with one
value. -/
noncomputable def sampleExp : Exp Unit String where
  measure _ m := ((), .ok (if m = "lead" then [some 1, some 2, some 6] else [some 3]))
  lastFile := some fun _ => "sm_0001.mat"

noncomputable def sampleEv : PT String where
  params := ["tL", "tR", "x"]
  measurements := ["lead", "chrg"]
  error := some [("tL", some 1), ("tR", some 1), ("x", some 1)]
  reference := [("tL", some 3), ("tR", none), ("x", some 3)]
  files := []
  count := 0
  rawX := []
  rawY := []

theorem sample_ran : Ran sampleExp () sampleEv.measurements [[some 1, some 2, some 6], [some 3]] () :=
  .cons (w' := ()) (by simp [sampleExp]) (.cons (w' := ()) (by simp [sampleExp]) (.nil _))

/-- The variance of the first parameter is scaled by `6 / 3`, for the second one there is no
reference, and for the third one no residual. -/
example : ∃ ev' result variances, evaluate id sampleExp () sampleEv = ((), ev', .ok (result, variances)) ∧
    ReportedAs ["tL", "tR", "x"] [(some 1, some 2), (some 2, some 1), (some 3, some 1)]
      result variances := by
  obtain ⟨ev', res, var, h1, h2⟩ := pass_thru_partial id sampleExp _ rfl () () sampleEv _ rfl _ sample_ran
    (by simp [sampleEv]) (by simp [sampleEv, LongEnough]) (by simp [sampleEv]) (by simp [sampleEv])
    (by simp [sampleEv, Series.index]) (by simp [sampleEv, Series.index])
  refine ⟨ev', res, var, h1, ?_⟩
  have e : [(some 1, some 2), (some 2, some 1), (some 3, some 1)] = withVariances
      [("tL", some 1), ("tR", some 1), ("x", some 1)] sampleEv.reference sampleEv.params
      (readings id sampleEv.measurements [[some 1, some 2, some 6], [some 3]]) := by
    simp [withVariances, readings, numberOf, qualityOf, sampleEv, varianceOf, Series.val,
      List.lookup, Val.div, List.range_succ]
    norm_num
  rw [e]
  exact h2

theorem collect_files (name : μ → String) (x : Exp ω μ) (f : ω → String) (hf : x.lastFile = some f)
    (ms : List μ) : ∀ (w : ω) (acc : Acc) (files : List String), ∃ files',
      (collect name x w ms acc files).2.1 = files ++ files' ∧
      FilesOf x f w ms files' (collect name x w ms acc files).1 ∧
      (∀ a, (collect name x w ms acc files).2.2 = .ok a → files'.length = ms.length) := by
  induction ms with
  | nil => intro w acc files; exact ⟨[], by simp [collect], by simp only [collect]; exact .stop _ _, by simp⟩
  | cons m ms ih =>
    intro w acc files
    rcases h : x.measure w m with ⟨w', e | r⟩
    · exact ⟨[], by simp [collect, h], by simp only [collect, h]; exact .failed h,
        by simp [collect, h]⟩
    · cases ha : addResult acc (name m) r with
      | error e =>
        exact ⟨[f w'], by simp [collect, h, hf, ha], by
          simp only [collect, h, hf, ha]; exact .next h (.stop _ _), by simp [collect, h, hf, ha]⟩
      | ok acc' =>
        obtain ⟨files', h1, h2, h3⟩ := ih w' acc' (files ++ [f w'])
        refine ⟨f w' :: files', ?_, ?_, ?_⟩
        · simp only [collect, h, hf, ha]; rw [h1]; simp
        · simp only [collect, h, hf, ha]; exact .next h h2
        · intro a h4
          simp only [collect, h, hf, ha] at h4
          simp [h3 a h4]

/-- After an evaluation, whether it returns or raises, the evaluator has the names of the files of exactly the
measurements that were made in this evaluation; an evaluation that returns has made all measurements. -/
theorem file_names_recorded (name : μ → String) (x : Exp ω μ) (f : ω → String)
    (hf : x.lastFile = some f) (w w' : ω) (ev ev' : PT μ) (err : Series) (hev : ev.error = some err)
    (r : Except PyErr (Series × Series)) (h : evaluate name x w ev = (w', ev', r)) :
    FilesOf x f w ev.measurements ev'.files w' ∧
      ((∃ v, r = .ok v) → ev'.files.length = ev.measurements.length) := by
  obtain ⟨files, h1, h2, h3⟩ := collect_files name x f hf ev.measurements w {} []
  simp only [evaluate, hev, run] at h
  rcases hc : collect name x w ev.measurements {} [] with ⟨w1, fs, e | acc⟩
  all_goals
    rw [hc] at h h1 h2 h3
    simp only [List.nil_append] at h h1 h2 h3
    subst h1
  · simp only [Prod.mk.injEq] at h
    obtain ⟨rfl, rfl, rfl⟩ := h
    exact ⟨h2, by simp⟩
  · have h4 := h3 acc rfl
    split at h
    · simp only [Prod.mk.injEq] at h
      obtain ⟨rfl, rfl, rfl⟩ := h
      exact ⟨h2, fun _ => h4⟩
    · split at h
      all_goals
        simp only [Prod.mk.injEq] at h
        obtain ⟨rfl, rfl, rfl⟩ := h
        exact ⟨h2, fun _ => h4⟩

/-- An evaluation whose second measurement raises leaves the name of the first file. -/
example : FilesOf (ω := Nat) (μ := String) ⟨fun w m => (w + 1, if m = "a" then .ok [] else .error .valueError),
      some fun w => toString w⟩ (fun w => toString w) 0 ["a", "b", "a"] ["1"] 2 :=
  .next (w' := 1) (r := []) rfl (.failed (e := .valueError) rfl)

end Qtune.Evaluator.PassThru
