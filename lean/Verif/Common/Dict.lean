/-!
A Python dict as an association list in insertion order: assigning to an existing key keeps its place.
-/

namespace Py.Dict

variable {κ ν : Type} [DecidableEq κ]

/-- `d.get(k)` -/
def get (d : List (κ × ν)) (k : κ) : Option ν := (d.find? (fun e => e.1 == k)).map (·.2)

/-- `d[k] = v` -/
def set : List (κ × ν) → κ → ν → List (κ × ν)
  | [], k, v => [(k, v)]
  | e :: d, k, v => if e.1 = k then (k, v) :: d else e :: set d k v

/-- `d.pop(k, None)`; `del d[k]` when the key is present -/
def erase (d : List (κ × ν)) (k : κ) : List (κ × ν) := d.filter (fun e => e.1 != k)

/-- `k in d` -/
def has (d : List (κ × ν)) (k : κ) : Bool := d.any (fun e => e.1 == k)

/-- No key occurs twice. -/
def Ok (d : List (κ × ν)) : Prop := (d.map (·.1)).Nodup

theorem get_nil (k : κ) : get ([] : List (κ × ν)) k = none := rfl

theorem get_cons (e : κ × ν) (d : List (κ × ν)) (k : κ) :
    get (e :: d) k = if e.1 = k then some e.2 else get d k := by
  simp only [get, List.find?_cons]
  by_cases h : e.1 = k
  · simp [h]
  · have hb : (e.1 == k) = false := by simpa using h
    simp [h, hb]

theorem get_set (d : List (κ × ν)) (k k' : κ) (v : ν) :
    get (set d k v) k' = if k' = k then some v else get d k' := by
  induction d with
  | nil => simp [set, get_cons, get_nil, eq_comm]
  | cons e d ih =>
    simp only [set]
    by_cases h : e.1 = k
    · simp only [h, if_true, get_cons]; grind
    · simp only [h, if_false, get_cons, ih]
      by_cases hk : e.1 = k'
      · subst hk; simp [h]
      · simp [hk]

theorem get_erase (d : List (κ × ν)) (k k' : κ) :
    get (erase d k) k' = if k' = k then none else get d k' := by
  induction d with
  | nil => simp [erase, get_nil]
  | cons e d ih =>
    simp only [erase, List.filter_cons] at *
    by_cases h : e.1 = k
    · simp only [h, bne_self_eq_false, Bool.false_eq_true, if_false, ih, get_cons]; grind
    · have : (e.1 != k) = true := by simpa using h
      simp only [this, if_true, get_cons, ih]
      by_cases hk : e.1 = k'
      · subst hk; simp [h]
      · simp [hk]

theorem has_iff (d : List (κ × ν)) (k : κ) : has d k = true ↔ k ∈ d.map (·.1) := by
  simp [has]

theorem has_iff_get (d : List (κ × ν)) (k : κ) : has d k = (get d k).isSome := by
  induction d with
  | nil => rfl
  | cons e d ih =>
    rw [get_cons]
    simp only [has, List.any_cons] at *
    by_cases h : e.1 = k <;> simp [h, ih]

theorem mem_of_get {d : List (κ × ν)} {k : κ} {v : ν} (h : get d k = some v) : (k, v) ∈ d := by
  induction d with
  | nil => simp [get_nil] at h
  | cons e d ih =>
    rw [get_cons] at h
    by_cases hk : e.1 = k
    · simp only [hk, if_true, Option.some.injEq] at h
      simp [← hk, ← h]
    · simp only [hk, if_false] at h
      simp [ih h]

theorem get_of_mem {d : List (κ × ν)} (ok : Ok d) {k : κ} {v : ν} (h : (k, v) ∈ d) : get d k = some v := by
  induction d with
  | nil => simp at h
  | cons e d ih =>
    simp only [Ok, List.map_cons, List.nodup_cons] at ok
    rw [get_cons]
    rcases List.mem_cons.1 h with h | h
    · subst h; simp
    · have : e.1 ≠ k := by
        rintro rfl
        exact ok.1 (List.mem_map.2 ⟨_, h, rfl⟩)
      simp [this, ih ok.2 h]

theorem get_none_iff (d : List (κ × ν)) (k : κ) : get d k = none ↔ k ∉ d.map (·.1) := by
  rw [← has_iff, has_iff_get]; simp

theorem set_of_not_mem (d : List (κ × ν)) (k : κ) (v : ν) (h : k ∉ d.map (·.1)) : set d k v = d ++ [(k, v)] := by
  induction d with
  | nil => rfl
  | cons e d ih =>
    simp only [List.map_cons, List.mem_cons, not_or] at h
    simp [set, Ne.symm h.1, ih h.2]

theorem keys_set (d : List (κ × ν)) (k : κ) (v : ν) :
    (set d k v).map (·.1) = if k ∈ d.map (·.1) then d.map (·.1) else d.map (·.1) ++ [k] := by
  induction d with
  | nil => simp [set]
  | cons e d ih =>
    simp only [set]
    by_cases h : e.1 = k
    · simp [h]
    · simp only [h, if_false, List.map_cons, ih, List.mem_cons, Ne.symm h, false_or]
      split <;> simp

omit [DecidableEq κ] in
theorem ok_nil : Ok ([] : List (κ × ν)) := by simp [Ok]

theorem ok_set {d : List (κ × ν)} (ok : Ok d) (k : κ) (v : ν) : Ok (set d k v) := by
  simp only [Ok, keys_set]
  split
  · exact ok
  · rename_i h
    rw [List.nodup_append]
    exact ⟨ok, by simp, by rintro a ha b hb rfl; simp at hb; subst hb; exact h ha⟩

theorem ok_erase {d : List (κ × ν)} (ok : Ok d) (k : κ) : Ok (erase d k) :=
  List.Nodup.sublist (List.Sublist.map _ List.filter_sublist) ok

omit [DecidableEq κ] in
theorem ok_filter {d : List (κ × ν)} (ok : Ok d) (p : κ × ν → Bool) : Ok (d.filter p) :=
  List.Nodup.sublist (List.Sublist.map _ List.filter_sublist) ok

theorem mem_set {d : List (κ × ν)} (ok : Ok d) (k : κ) (v : ν) (e : κ × ν) :
    e ∈ set d k v ↔ (e = (k, v) ∨ (e ∈ d ∧ e.1 ≠ k)) := by
  induction d with
  | nil => simp [set]
  | cons x d ih =>
    simp only [Ok, List.map_cons, List.nodup_cons] at ok
    simp only [set]
    by_cases h : x.1 = k
    · subst h
      simp only [if_true, List.mem_cons]
      constructor
      · rintro (rfl | he)
        · simp
        · right
          refine ⟨.inr he, ?_⟩
          intro hx
          exact ok.1 (List.mem_map.2 ⟨e, he, hx⟩)
      · rintro (rfl | ⟨rfl | he, hn⟩)
        · simp
        · exact absurd rfl hn
        · exact .inr he
    · simp only [h, if_false, List.mem_cons, ih ok.2]
      constructor
      · rintro (rfl | h' | ⟨h1, h2⟩)
        · exact .inr ⟨.inl rfl, h⟩
        · exact .inl h'
        · exact .inr ⟨.inr h1, h2⟩
      · rintro (rfl | ⟨rfl | h1, h2⟩)
        · exact .inr (.inl rfl)
        · exact .inl rfl
        · exact .inr (.inr ⟨h1, h2⟩)

end Py.Dict
