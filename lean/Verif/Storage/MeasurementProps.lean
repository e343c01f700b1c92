import Verif.Storage.MeasurementModel
import Mathlib.Data.List.Perm.Basic
import Mathlib.Tactic.Tauto
import Mathlib.Tactic.ByContra
import Mathlib.Data.List.Nodup

/-! # C188: measurements are stored with their name and options -/

namespace Qtune.Storage.Meas

variable {V : Type}

/-- The keys of a dict. -/
def keys (d : List (String × V)) : List String := d.map Prod.fst

/-- Two dicts have the same entries. -/
def SameDict (d d' : List (String × V)) : Prop := ∀ k, d.lookup k = d'.lookup k

/-- The entry with which an operation changes the options has this key. -/
def Op.key : Op V → String
  | .set k _ => k
  | .del k => k

theorem mem_keys_put (k : String) (v : V) (d : List (String × V)) (j : String) : j ∈ keys (put k v d) ↔ j = k ∨ j ∈ keys d := by
  induction d with
  | nil => simp [put, keys]
  | cons e d ih =>
    by_cases h : e.1 = k
    · have hp : put k v (e :: d) = (k, v) :: d := by simp [put, h]
      simp only [hp, keys, List.map_cons, List.mem_cons, h]; tauto
    · simp only [put, if_neg h, keys, List.map_cons, List.mem_cons] at ih ⊢; rw [ih]; tauto

theorem nodup_put (k : String) (v : V) (d : List (String × V)) (h : (keys d).Nodup) : (keys (put k v d)).Nodup := by
  induction d with
  | nil => simp [put, keys]
  | cons e d ih =>
    simp only [keys, List.map_cons, List.nodup_cons] at h
    by_cases hk : e.1 = k
    · simp only [put, if_pos hk, keys, List.map_cons, List.nodup_cons]; rw [← hk]; exact h
    · simp only [put, if_neg hk, keys, List.map_cons, List.nodup_cons]
      refine ⟨fun hm => ?_, ih h.2⟩
      rcases (mem_keys_put k v d e.1).1 hm with h1 | h1
      · exact hk h1
      · exact h.1 h1

theorem lookup_put (k : String) (v : V) (d : List (String × V)) (j : String) :
    (put k v d).lookup j = if j = k then some v else d.lookup j := by
  induction d with
  | nil =>
    by_cases h : j = k
    · simp [put, List.lookup, h]
    · simp [put, List.lookup, show (j == k) = false by simp [h], h]
  | cons e d ih =>
    obtain ⟨a, b⟩ := e
    by_cases h : a = k
    · subst h
      by_cases hj : j = a
      · simp [put, List.lookup, hj]
      · simp [put, List.lookup, show (j == a) = false by simp [hj], hj]
    · by_cases hj : j = a
      · subst hj; simp [put, h, List.lookup]
      · have hja : (j == a) = false := by simp [hj]
        simp [put, h, List.lookup, hja, ih]

theorem lookup_perm {d d' : List (String × V)} (h : d.Perm d') (hn : (keys d).Nodup) (k : String) : d.lookup k = d'.lookup k := by
  induction h with
  | nil => rfl
  | cons x _ ih =>
    simp only [keys, List.map_cons, List.nodup_cons] at hn
    obtain ⟨a, b⟩ := x
    by_cases hk : k = a
    · simp [List.lookup, hk]
    · have : (k == a) = false := by simp [hk]
      simp [List.lookup, this, ih hn.2]
  | swap x y l =>
    simp only [keys, List.map_cons, List.nodup_cons, List.mem_cons, not_or] at hn
    obtain ⟨a, b⟩ := x; obtain ⟨a', b'⟩ := y
    by_cases h1 : k = a
    · have : (k == a') = false := by simp only [beq_eq_false_iff_ne]; rintro rfl; exact hn.1.1 h1
      simp [List.lookup, h1 ▸ this, h1]
    · have h1' : (k == a) = false := by simp [h1]
      by_cases h2 : k = a'
      · subst h2; simp [List.lookup, h1']
      · have h2' : (k == a') = false := by simp [h2]
        simp [List.lookup, h1', h2']
  | trans h1 _ ih1 ih2 => rw [ih1 hn, ih2 ((h1.map Prod.fst).nodup_iff.1 hn)]

theorem lookup_filter (k : String) (d : List (String × V)) (j : String) (h : j ≠ k) : (d.filter fun e => e.1 != k).lookup j = d.lookup j := by
  induction d with
  | nil => rfl
  | cons e d ih =>
    obtain ⟨a, b⟩ := e
    by_cases hj : j = a
    · subst hj; simp [h, List.lookup]
    · have h1 : (j == a) = false := by simp [hj]
      by_cases ha : a = k
      · simp [List.filter, ha, ih, List.lookup, show (j == k) = false by simp [h]]
      · simp [List.filter, show (a != k) = true by simp [ha], List.lookup, h1, ih]

theorem lookup_filter_self (k : String) (d : List (String × V)) : (d.filter fun e => e.1 != k).lookup k = none := by
  induction d with
  | nil => rfl
  | cons e d ih =>
    obtain ⟨a, b⟩ := e
    by_cases ha : a = k
    · simp [List.filter, ha, ih]
    · simp [List.filter, show (a != k) = true by simp [ha], List.lookup, show (k == a) = false by simp [Ne.symm ha], ih]

theorem lookup_none {k : String} {d : List (String × V)} : d.lookup k = none ↔ k ∉ keys d := by
  induction d with
  | nil => simp [keys]
  | cons e d ih =>
    obtain ⟨a, b⟩ := e
    by_cases h : k = a
    · simp [List.lookup, keys, h]
    · simp only [List.lookup, show (k == a) = false by simp [h], keys, List.map_cons, List.mem_cons, h, false_or]; exact ih

theorem keys_filter_nodup (p : String × V → Bool) {d : List (String × V)} (h : (keys d).Nodup) : (keys (d.filter p)).Nodup :=
  h.sublist (List.filter_sublist.map _)

theorem run_inv (P : String → Prop) (ops : List (Op V)) (hops : ∀ o ∈ ops, P o.key) (m : Measurement V) (hn : (keys m.options).Nodup)
    (hk : ∀ k ∈ keys m.options, P k) : (keys (m.run ops).options).Nodup ∧ (∀ k ∈ keys (m.run ops).options, P k) ∧ (m.run ops).name = m.name := by
  induction ops generalizing m with
  | nil => exact ⟨hn, hk, rfl⟩
  | cons o ops ih =>
    have ho := hops o (by simp)
    have hrest : ∀ o ∈ ops, P o.key := fun o h => hops o (by simp [h])
    cases o with
    | set k v =>
      refine ih hrest (m.setOption k v) (nodup_put k v _ hn) (fun j hj => ?_)
      rcases (mem_keys_put k v m.options j).1 hj with h | h
      · rw [h]; exact ho
      · exact hk j h
    | del k =>
      simp only [Measurement.run, Measurement.delOption]
      by_cases h : m.options.any (fun e => e.1 == k) = true
      · simp only [if_pos h]
        refine ih hrest { m with options := m.options.filter fun e => e.1 != k } (keys_filter_nodup _ hn) (fun j hj => hk j ?_)
        simp only [keys, List.mem_map, List.mem_filter] at hj ⊢
        obtain ⟨e, he, h⟩ := hj; exact ⟨e, he.1, h⟩
      · simp only [if_neg h]; exact ih hrest m hn hk

theorem construct_of {m : Measurement V} {kw : List (String × V)} (hm : construct kw = .ok m) :
    (∀ k ∈ keys m.options, k ≠ "self" ∧ k ≠ "name") ∧ kw.lookup "name" = some m.name ∧ ∀ k, k ≠ "name" → m.options.lookup k = kw.lookup k := by
  simp only [construct] at hm
  split at hm
  · simp at hm
  · rename_i hs
    cases hl : kw.lookup "name" with
    | none => rw [hl] at hm; simp at hm
    | some n =>
      rw [hl] at hm
      simp only [Except.ok.injEq] at hm
      subst hm
      refine ⟨fun k hk => ?_, rfl, fun k hk => lookup_filter _ _ _ hk⟩
      simp only [keys, List.mem_map, List.mem_filter, bne_iff_ne, ne_eq] at hk
      obtain ⟨e, he, rfl⟩ := hk
      refine ⟨fun h => hs ?_, he.2⟩
      exact List.any_eq_true.2 ⟨e, he.1, by simp [h]⟩

/-- A measurement that a program has made and whose options it has changed, but not those with the names `name` and `self`: if it is stored and
loaded, in whatever order the file keeps the entries, then it has the same name and the same options. -/
theorem measurement_reload_partial (kw : List (String × V)) (hkw : (keys kw).Nodup) (m : Measurement V) (hm : construct kw = .ok m) (ops : List (Op V))
    (hops : ∀ o ∈ ops, o.key ≠ "self" ∧ o.key ≠ "name") (file : List (String × V)) (hf : file.Perm (m.run ops).toHdf5) :
    ∃ m', construct file = .ok m' ∧ m'.name = m.name ∧ SameDict m'.options (m.run ops).options := by
  have hopt : (keys m.options).Nodup := by
    simp only [construct] at hm
    split at hm
    · simp at hm
    · cases hl : kw.lookup "name" with
      | none => rw [hl] at hm; simp at hm
      | some n => rw [hl] at hm; simp only [Except.ok.injEq] at hm; subst hm; exact keys_filter_nodup _ hkw
  obtain ⟨hn, hk, hname⟩ := run_inv (fun k => k ≠ "self" ∧ k ≠ "name") ops hops m hopt (construct_of hm).1
  have hnd : (keys (m.run ops).toHdf5).Nodup := nodup_put _ _ _ hn
  have hlook : ∀ k, file.lookup k = if k = "name" then some m.name else (m.run ops).options.lookup k := fun k => by
    rw [← lookup_perm hf.symm hnd, ← hname]; exact lookup_put _ _ _ _
  have hself : file.any (fun e => e.1 == "self") = false := by
    rw [Bool.eq_false_iff]; intro h
    obtain ⟨e, he, h⟩ := List.any_eq_true.1 h
    have : "self" ∈ keys (m.run ops).toHdf5 := List.mem_map.2 ⟨e, hf.mem_iff.1 he, by simpa using h⟩
    rcases (mem_keys_put "name" (m.run ops).name (m.run ops).options "self").1 this with h1 | h1
    · exact absurd h1 (by decide)
    · exact (hk _ h1).1 rfl
  refine ⟨⟨m.name, file.filter fun e => e.1 != "name"⟩, ?_, rfl, fun k => ?_⟩
  · have h1 := hlook "name"
    rw [if_pos rfl] at h1
    simp only [construct, hself, Bool.false_eq_true, if_false, h1]
  · by_cases h : k = "name"
    · subst h
      rw [lookup_filter_self, eq_comm, lookup_none]
      exact fun h => (hk _ h).2 rfl
    · rw [lookup_filter _ _ _ h, hlook, if_neg h]

/-- An option `name` that the program sets afterwards is lost without a message, for every measurement and every value. -/
theorem option_called_name_refuted (m : Measurement V) (hn : (keys m.options).Nodup) (hs : "self" ∉ keys m.options) (v : V) (file : List (String × V))
    (hf : file.Perm (m.setOption "name" v).toHdf5) :
    (m.setOption "name" v).options.lookup "name" = some v ∧
      ∃ m', construct file = .ok m' ∧ m'.name = m.name ∧ m'.options.lookup "name" = none := by
  refine ⟨by simp [Measurement.setOption, lookup_put], ?_⟩
  have hnd : (keys (m.setOption "name" v).toHdf5).Nodup := nodup_put _ _ _ (nodup_put _ _ _ hn)
  have h1 : file.lookup "name" = some m.name := by
    rw [← lookup_perm hf.symm hnd]; exact (lookup_put _ _ _ _).trans (if_pos rfl)
  have hself : file.any (fun e => e.1 == "self") = false := by
    rw [Bool.eq_false_iff]; intro h
    obtain ⟨e, he, h⟩ := List.any_eq_true.1 h
    have : "self" ∈ keys (m.setOption "name" v).toHdf5 := List.mem_map.2 ⟨e, hf.mem_iff.1 he, by simpa using h⟩
    rcases (mem_keys_put _ _ _ _).1 this with h1 | h1
    · exact absurd h1 (by decide)
    · rcases (mem_keys_put _ _ _ _).1 h1 with h2 | h2
      · exact absurd h2 (by decide)
      · exact hs h2
  exact ⟨⟨m.name, file.filter fun e => e.1 != "name"⟩, by simp only [construct, hself, Bool.false_eq_true, if_false, h1], rfl, lookup_filter_self _ _⟩

/-- With an option `self` the measurement can be stored, but not loaded. -/
theorem option_called_self_refuted (m : Measurement V) (v : V) (file : List (String × V)) (hf : file.Perm (m.setOption "self" v).toHdf5) :
    construct file = .error .typeError := by
  have : "self" ∈ keys (m.setOption "self" v).toHdf5 :=
    (mem_keys_put _ _ _ _).2 (Or.inr ((mem_keys_put _ _ _ _).2 (Or.inl rfl)))
  obtain ⟨e, he, h⟩ := List.mem_map.1 this
  have : file.any (fun e => e.1 == "self") = true := List.any_eq_true.2 ⟨e, hf.mem_iff.2 he, by simp [h]⟩
  simp only [construct, this, if_true]

/-- A `QQDMeasurement` can be made, but it has neither name nor options and cannot be stored, for all arguments. -/
theorem qqd_measurement_refuted [Inhabited V] (kw : List (String × V)) (m : QQDMeasurement) (_ : constructQQD kw = .ok m) :
    (m.toHdf5 : Except PyErr (List (String × V))) = .error .attributeError ∧ (m.name : Except PyErr V) = .error .attributeError ∧
      (m.options : Except PyErr (List (String × V))) = .error .attributeError := by
  refine ⟨?_, ?_, ?_⟩ <;> simp [QQDMeasurement.toHdf5, QQDMeasurement.options, QQDMeasurement.name, QQDMeasurement.attrs]

/-- A `QQDMeasurement` is made from all arguments with a `name` and without `self`, like a `Measurement`. -/
theorem qqd_measurement_made (kw : List (String × V)) :
    (∃ m : QQDMeasurement, constructQQD kw = .ok m) ↔ "name" ∈ keys kw ∧ "self" ∉ keys kw := by
  have hs : kw.any (fun e => e.1 == "self") = true ↔ "self" ∈ keys kw := by
    simp [keys]
  have hn := @lookup_none V "name" kw
  rw [constructQQD]
  split
  · rename_i h
    simp [hs.1 h]
  · rename_i h
    cases hl : kw.lookup "name" with
    | none => simp [hn.1 hl]
    | some v =>
      have h1 : "name" ∈ keys kw := by
        by_contra h2
        rw [hn.2 h2] at hl
        cases hl
      have h2 : "self" ∉ keys kw := fun h3 => h (hs.2 h3)
      simp [h1, h2]

/-- `Measurement('line', center=3)`, then `options['range'] = 5`, stored in another order. -/
example : ∃ m', construct [("range", 5), ("name", 0), ("center", 3)] = .ok m' ∧ m'.name = 0 ∧
    SameDict m'.options ((Measurement.mk 0 [("center", 3)]).run [.set "range" 5]).options :=
  measurement_reload_partial (V := Nat) [("name", 0), ("center", 3)] (by decide) ⟨0, [("center", 3)]⟩ rfl [.set "range" 5]
    (by intro o ho; simp only [List.mem_singleton] at ho; subst ho; exact ⟨by decide, by decide⟩) _ (by decide)

example : construct [("name", 0), ("self", 1)] = .error .typeError :=
  option_called_self_refuted (V := Nat) ⟨0, []⟩ 1 _ (by decide)

example : ∃ m : QQDMeasurement, constructQQD [("name", 0), ("center", 3)] = .ok m := ⟨⟨none⟩, rfl⟩

end Qtune.Storage.Meas
