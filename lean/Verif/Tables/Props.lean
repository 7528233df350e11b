import Verif.Tables.Model
/-!
C129: the cells of a table are those of the block that was asked for.
-/

namespace Tables

variable {V : Type}

/-- all rows have that many columns -/
def Rect (m : List (List V)) (c : Nat) : Prop := ∀ row ∈ m, row.length = c

/-- the table shows the block of the matrix that begins at `ro, co` and has `rows` rows and `cols` columns -/
def ShowsBlock (t : Table V) (m : List (List V)) (ro co rows cols : Nat) : Prop :=
  t.rows = rows ∧ t.cols = cols ∧ ∀ i j, i < rows → j < cols →
    ∃ row v, m[ro + i]? = some row ∧ row[co + j]? = some v ∧ t.cell i j = some (.scalar v)

theorem sum_length {m : List (List V)} {c : Nat} (h : Rect m c) : (m.map List.length).sum = m.length * c := by
  induction m with
  | nil => simp
  | cons r m ih =>
    rw [List.map_cons, List.sum_cons, ih fun x hx => h x (List.mem_cons_of_mem _ hx), h r (List.mem_cons_self ..), List.length_cons,
      Nat.succ_mul]
    omega

/-- the rows and columns from the offsets -/
theorem getElem_dropped (m : List (List V)) (ro co i : Nat) :
    ((m.drop ro).map (List.drop co))[i]? = (m[ro + i]?).map (List.drop co) := by
  rw [List.getElem?_map, List.getElem?_drop]

theorem arrayToXml_matrix (m : List (List V)) (c ro co rows cols : Nat) (hm : Rect m c) (h2 : 2 ≤ m.length) (hc : 2 ≤ c)
    (hro : ro < m.length) (hco : co < c) (hr : rows ≠ 0) (hcl : cols ≠ 0) (hrows : 2 ≤ rows ∨ ro + 1 = m.length) :
    ∃ t, arrayToXml (.d2 m) ro co rows cols = some t ∧
      ShowsBlock t m ro co (min (min rows 100) (m.length - ro)) (min (min cols 100) (c - co)) := by
  have hsq : squeeze (.d2 m) (min rows maxShown) (min cols maxShown) = some (.d2 m) := by
    unfold squeeze
    rw [if_neg]
    rintro ⟨h, _⟩
    simp only [len] at h
    omega
  have hsz : size (.d2 m) > len (.d2 m) := by
    simp only [size, len]
    rw [sum_length hm]
    have : m.length * 2 ≤ m.length * c := Nat.mul_le_mul_left _ hc
    omega
  obtain ⟨row0, hrow0⟩ : ∃ row, m[ro]? = some row := ⟨m[ro], List.getElem?_eq_getElem hro⟩
  have hlen0 : row0.length = c := hm _ (List.mem_of_getElem? hrow0)
  obtain ⟨x, xs, hx⟩ : ∃ x xs, (m.drop ro).map (List.drop co) = x :: xs := by
    cases h : (m.drop ro).map (List.drop co) with
    | nil =>
      have := congrArg List.length h
      rw [List.length_map, List.length_drop] at this
      simp at this
      omega
    | cons x xs => exact ⟨x, xs, rfl⟩
  have hx0 : x = row0.drop co := by
    have := getElem_dropped m ro co 0
    rw [hx, Nat.add_zero, hrow0] at this
    simpa using this
  have hxl : x.length = c - co := by rw [hx0, List.length_drop, hlen0]
  have hml : ((m.drop ro).map (List.drop co)).length = m.length - ro := by rw [List.length_map, List.length_drop]
  have hclip : clip (.d2 m) ro co (min rows maxShown) (min cols maxShown) =
      some (if m.length - ro = 1 then .d1 x else .d2 ((m.drop ro).map (List.drop co)), min (min rows maxShown) (m.length - ro),
        min (min cols maxShown) (c - co)) := by
    unfold clip
    rw [if_pos hsz]
    simp only
    rw [hx] at hml ⊢
    simp only [hml, hxl]
  refine ⟨⟨_, _, _⟩, by unfold arrayToXml; simp only [hsq, hclip]; rfl, ?_⟩
  have e100 : maxShown = 100 := rfl
  simp only [e100]
  refine ⟨rfl, rfl, ?_⟩
  intro i j hi hj
  obtain ⟨row, hrow⟩ : ∃ row, m[ro + i]? = some row := ⟨m[ro + i]'(by omega), List.getElem?_eq_getElem (by omega)⟩
  have hrl : row.length = c := hm _ (List.mem_of_getElem? hrow)
  obtain ⟨v, hv⟩ : ∃ v, row[co + j]? = some v := ⟨row[co + j]'(by omega), List.getElem?_eq_getElem (by omega)⟩
  refine ⟨row, v, hrow, hv, ?_⟩
  have hitem : item (.d2 ((m.drop ro).map (List.drop co))) i = some (.vec (row.drop co)) := by
    simp only [item]
    rw [getElem_dropped, hrow]
    rfl
  dsimp only
  by_cases hone : m.length - ro = 1
  · -- the last row
    rw [if_pos hone]
    have hi0 : i = 0 := by omega
    subst hi0
    rw [Nat.add_zero, hrow0] at hrow
    cases Option.some.inj hrow
    have hr1 : min (min rows 100) (m.length - ro) = 1 := by omega
    have hxi : ∀ k, item (.d1 x) k = (row0[co + k]?).map .scalar := by
      intro k
      simp only [item, hx0, List.getElem?_drop]
    simp only [cellOf]
    rw [if_pos (Or.inl hr1)]
    by_cases hc1 : min (min cols 100) (c - co) = 1
    · rw [if_pos ⟨hr1, hc1⟩, hxi]
      have : j = 0 := by omega
      subst this
      rw [hv]
      rfl
    · rw [if_neg (fun h => hc1 h.2), if_pos hr1, hxi, hv]
      rfl
  · rw [if_neg hone]
    have hr1 : ¬ min (min rows 100) (m.length - ro) = 1 := by omega
    simp only [cellOf]
    by_cases hc1 : min (min cols 100) (c - co) = 1
    · rw [if_pos (Or.inr hc1), if_neg (fun h => hr1 h.1), if_neg hr1, hitem]
      have : j = 0 := by omega
      subst this
      simp only [List.getElem?_drop]
      rw [hv]
      rfl
    · rw [if_neg (fun h => h.elim hr1 hc1), hitem]
      simp only [List.getElem?_drop]
      rw [hv]
      rfl

/-- C129 (part). A matrix with two or more rows and columns: what is shown is the block asked for, up to 100 rows and columns and within the
first 1000 rows and columns. Missing: requests for one row that is not the last (see the witness), for which other cells are shown,
and matrices of one row or one column. -/
theorem c129_matrix_partial (m : List (List V)) (c ro co rows cols : Nat) (b : Bool) (hm : Rect m c) (h2 : 2 ≤ m.length) (hc : 2 ≤ c)
    (hro : ro < min m.length 1000) (hco : co < min c 1000) (hr : rows ≠ 0) (hcl : cols ≠ 0)
    (hrows : 2 ≤ rows ∨ ro + 1 = min m.length 1000) :
    ∃ t, showArray (.d2 m) b ro co (some (rows, cols)) = some t ∧
      ShowsBlock t m ro co (min (min rows 100) (min m.length 1000 - ro)) (min (min cols 100) (min c 1000 - co)) := by
  have hlen : ((m.take maxSlice).map (List.take maxSlice)).length = min m.length 1000 := by
    rw [List.length_map, List.length_take, Nat.min_comm]; rfl
  have hrect : Rect ((m.take maxSlice).map (List.take maxSlice)) (min c 1000) := by
    intro row hrow
    obtain ⟨r, hr, rfl⟩ := List.mem_map.mp hrow
    rw [List.length_take, hm r (List.mem_of_mem_take hr), Nat.min_comm]
    rfl
  obtain ⟨t, ht, h1, h3, h4⟩ := arrayToXml_matrix _ _ ro co rows cols hrect (by omega) (by omega) (by omega) (by omega) hr hcl (by omega)
  rw [hlen] at h1 h4
  refine ⟨t, ht, h1, h3, ?_⟩
  intro i j hi hj
  obtain ⟨row, v, e1, e2, e3⟩ := h4 i j hi hj
  rw [List.getElem?_map, List.getElem?_take] at e1
  by_cases hi2 : ro + i < maxSlice
  · rw [if_pos hi2] at e1
    cases hmi : m[ro + i]? with
    | none => rw [hmi] at e1; cases e1
    | some row' =>
      rw [hmi] at e1
      cases Option.some.inj e1
      rw [List.getElem?_take] at e2
      split at e2
      · exact ⟨row', v, rfl, e2, e3⟩
      · cases e2
  · rw [if_neg hi2] at e1
    cases e1

/-- C129 (part). The first load of a matrix, without a request, shows its first block. -/
theorem c129_first_load_partial (m : List (List V)) (c : Nat) (b : Bool) (hm : Rect m c) (h2 : 2 ≤ m.length) (hc : 2 ≤ c) :
    ∃ t, showArray (.d2 m) b 0 0 none = some t ∧ ShowsBlock t m 0 0 (min m.length 100) (min c 100) := by
  obtain ⟨row0, hrow0⟩ : ∃ row, m[0]? = some row := ⟨m[0]'(by omega), List.getElem?_eq_getElem (by omega)⟩
  have hlen0 : row0.length = c := hm _ (List.mem_of_getElem? hrow0)
  have : showArray (.d2 m) b 0 0 none = showArray (.d2 m) b 0 0 (some (min m.length 1000, min c 1000)) := by
    unfold showArray
    simp only [arrayMeta, hrow0, Option.map_some, hlen0, Option.getD_none, Option.getD_some]
    rfl
  rw [this]
  obtain ⟨t, ht, hs⟩ := c129_matrix_partial m c 0 0 (min m.length 1000) (min c 1000) b hm h2 hc (by omega) (by omega) (by omega) (by omega)
    (Or.inl (by omega))
  refine ⟨t, ht, ?_⟩
  have e1 : min (min (min m.length 1000) 100) (min m.length 1000 - 0) = min m.length 100 := by omega
  have e2 : min (min (min c 1000) 100) (min c 1000 - 0) = min c 100 := by omega
  rwa [e1, e2] at hs

/-- C129 (part). An array of one dimension shown as a row: what is shown is the part asked for, and as a column as well. -/
theorem c129_vector_partial (l : List V) (o n : Nat) (ho : o < min l.length 1000) (hn : n ≠ 0) (hl : 2 ≤ l.length) :
    (∃ t, showArray (.d1 l) true 0 o (some (1, n)) = some t ∧ t.rows = 1 ∧ t.cols = min (min n 100) (min l.length 1000 - o) ∧
      ∀ j, j < t.cols → ∃ v, l[o + j]? = some v ∧ t.cell 0 j = some (.scalar v)) ∧
    (∃ t, showArray (.d1 l) false o 0 (some (n, 1)) = some t ∧ t.cols = 1 ∧ 
      (n ≠ 1 ∨ o ≠ 0 → t.rows = min (min n 100) (min l.length 1000 - o)) ∧ (n = 1 → o = 0 → t.rows = 1) ∧
      ∀ i, i < t.rows → ∃ v, l[o + i]? = some v ∧ t.cell i 0 = some (.scalar v)) := by
  have e100 : maxShown = 100 := rfl
  have e1000 : maxSlice = 1000 := rfl
  have hlen : (l.take 1000).length = min l.length 1000 := by rw [List.length_take, Nat.min_comm]
  have hget : ∀ k, k < min l.length 1000 → ∃ v, l[k]? = some v ∧ (l.take 1000)[k]? = some v := by
    intro k hk
    refine ⟨l[k]'(by omega), List.getElem?_eq_getElem (by omega), ?_⟩
    rw [List.getElem?_take, if_pos (by omega)]
    exact List.getElem?_eq_getElem (by omega)
  have hsq : ∀ r c, squeeze (.d1 (l.take 1000)) r c = some (.d1 (l.take 1000)) := by
    intro r c
    unfold squeeze
    rw [if_neg]
    rintro ⟨h, _⟩
    simp only [len] at h
    omega
  have hdl : ((l.take 1000).drop o).length = min l.length 1000 - o := by rw [List.length_drop, hlen]
  constructor
  · refine ⟨⟨1, min (min n 100) (min l.length 1000 - o), cellOf (.d1 ((l.take 1000).drop o)) 1 (min (min n 100) (min l.length 1000 - o))⟩, ?_, rfl, rfl, ?_⟩
    · simp only [showArray, arrayMeta, arrayToXml, Option.getD_some, e100, e1000, hsq, clip, size, len, gt_iff_lt, Nat.lt_irrefl, if_false,
        if_true, dropRows, hdl]
      rfl
    · intro j hj
      dsimp only at hj ⊢
      obtain ⟨v, hv1, hv2⟩ := hget (o + j) (by omega)
      refine ⟨v, hv1, ?_⟩
      have hit : ∀ k, item (.d1 ((l.take 1000).drop o)) k = ((l.take 1000)[o + k]?).map .scalar := by
        intro k
        simp only [item, List.getElem?_drop]
      unfold cellOf
      rw [if_pos (Or.inl rfl)]
      by_cases h1 : min (min n 100) (min l.length 1000 - o) = 1
      · have : j = 0 := by omega
        subst this
        rw [if_pos ⟨rfl, h1⟩, hit, hv2]
        rfl
      · rw [if_neg (fun h => h1 h.2), if_pos rfl, hit, hv2]
        rfl
  · have hit : ∀ k, item (.d1 ((l.take 1000).drop o)) k = ((l.take 1000)[o + k]?).map .scalar := by
      intro k
      simp only [item, List.getElem?_drop]
    by_cases hb : o = 0 ∧ min n 100 = 1
    · have hn1 : n = 1 := by omega
      obtain ⟨ho0, _⟩ := hb
      subst ho0
      subst hn1
      have hd0 : (l.take 1000).drop 0 = l.take 1000 := rfl
      have hmn : min 1 (min l.length 1000) = 1 := by omega
      refine ⟨⟨1, 1, cellOf (.d1 (l.take 1000)) 1 1⟩, ?_, rfl, ?_, fun _ _ => rfl, ?_⟩
      · have hcl : clip (.d1 (l.take 1000)) 0 0 1 1 = some (.d1 (l.take 1000), 1, 1) := by
          simp only [clip, size, len, gt_iff_lt, Nat.lt_irrefl, if_false, if_true, dropRows, hd0, hlen, hmn, and_self]
        show (match squeeze (.d1 (l.take 1000)) 1 1 with
          | none => none
          | some a => match clip a 0 0 1 1 with
            | none => none
            | some (a, rows, cols) => some (⟨rows, cols, cellOf a rows cols⟩ : Table V)) = _
        rw [hsq]
        simp only [hcl]
      · rintro (h | h) <;> exact absurd rfl h
      · intro i hi
        obtain ⟨v, hv1, hv2⟩ := hget 0 (by omega)
        have : i = 0 := by simpa using hi
        subst this
        refine ⟨v, hv1, ?_⟩
        simp only [cellOf, item, hv2]
        rfl
    · refine ⟨⟨min (min n 100) (min l.length 1000 - o), 1, cellOf (.d1 ((l.take 1000).drop o)) (min (min n 100) (min l.length 1000 - o)) 1⟩, ?_, rfl, ?_, ?_, ?_⟩
      · have hcl : clip (.d1 (l.take 1000)) o 0 (min n 100) 1 =
            some (.d1 ((l.take 1000).drop o), min (min n 100) (min l.length 1000 - o), 1) := by
          simp only [clip, size, len, gt_iff_lt, Nat.lt_irrefl, if_false, if_true, dropRows, hdl, and_self, hb]
        show (match squeeze (.d1 (l.take 1000)) (min n 100) 1 with
          | none => none
          | some a => match clip a o 0 (min n 100) 1 with
            | none => none
            | some (a, rows, cols) => some (⟨rows, cols, cellOf a rows cols⟩ : Table V)) = _
        rw [hsq]
        simp only [hcl]
      · intro _; rfl
      · intro h1 h2
        exact absurd ⟨h2, by omega⟩ hb
      · intro i hi
        dsimp only at hi ⊢
        obtain ⟨v, hv1, hv2⟩ := hget (o + i) (by omega)
        refine ⟨v, hv1, ?_⟩
        unfold cellOf
        rw [if_pos (Or.inr rfl)]
        by_cases h1 : min (min n 100) (min l.length 1000 - o) = 1
        · have : i = 0 := by omega
          subst this
          rw [if_pos ⟨h1, rfl⟩, hit, hv2]
          rfl
        · rw [if_neg (fun h => h1 h.1), if_neg h1, hit, hv2]
          rfl

/-- C129 (part). A data frame: what is shown is the block asked for, up to 100 rows and columns and within the first 1000 rows and columns,
and each column has its label and the bounds of all its values. Missing: a request that goes beyond the last column fails (see the
witness). -/
theorem c129_frame_partial (f : Frame V) (hm : Rect f.cells f.labels.length) (ro co rows cols : Nat)
    (hcols : co + min (min cols 100) (min f.labels.length 1000) ≤ min f.labels.length 1000) :
    ∃ t, showFrame f ro co (some (rows, cols)) = some t ∧
      ShowsBlock t.table f.cells ro co (min (min rows 100) (min f.cells.length 1000 - ro)) (min (min cols 100) (min f.labels.length 1000)) ∧
      t.headers.length = t.table.cols ∧
      ∀ (j : Nat) h, t.headers[j]? = some h → f.labels[co + j]? = some h.1 ∧ h.2.length = min f.cells.length 1000 ∧
        ∀ (i : Nat) x, h.2[i]? = some x → ∃ row v, f.cells[i]? = some row ∧ row[co + j]? = some v ∧ x = some v := by
  have e100 : maxShown = 100 := rfl
  have e1000 : maxSlice = 1000 := rfl
  simp only [showFrame, Option.getD_some, e100, e1000]
  generalize hC : min (min cols 100) (min f.labels.length 1000) = C at hcols ⊢
  rw [if_neg (by omega)]
  refine ⟨_, rfl, ?_, ?_, ?_⟩
  · refine ⟨?_, ?_, ?_⟩
    · simp only [List.length_map, List.length_take, List.length_drop]
      omega
    · simp only [List.length_take, List.length_drop]
      omega
    · intro i j hi hj
      obtain ⟨row, hrow⟩ : ∃ row, f.cells[ro + i]? = some row := ⟨f.cells[ro + i]'(by omega), List.getElem?_eq_getElem (by omega)⟩
      have hrl : row.length = f.labels.length := hm _ (List.mem_of_getElem? hrow)
      obtain ⟨v, hv⟩ : ∃ v, row[co + j]? = some v := ⟨row[co + j]'(by omega), List.getElem?_eq_getElem (by omega)⟩
      refine ⟨row, v, hrow, hv, ?_⟩
      simp only [List.getElem?_map, List.getElem?_take, List.getElem?_drop]
      rw [if_pos (by omega), if_pos (by omega), hrow]
      simp only [Option.map_some, Option.bind_some, List.getElem?_take, List.getElem?_drop]
      rw [if_pos (by omega), if_pos (by omega), hv]
      rfl
  · simp
  · intro j h hj
    rw [List.getElem?_map, List.getElem?_zipIdx] at hj
    cases hl : (((f.labels.take (min f.labels.length 1000)).drop co).take C)[j]? with
    | none => rw [hl] at hj; cases hj
    | some lab =>
      rw [hl] at hj
      simp only [Option.map_some, Option.some.injEq, Nat.zero_add] at hj
      subst hj
      have hjC : j < C := by
        have := (List.getElem?_eq_some_iff.mp hl).1
        simp only [List.length_take, List.length_drop] at this
        omega
      refine ⟨?_, ?_, ?_⟩
      · rw [List.getElem?_take, if_pos hjC, List.getElem?_drop, List.getElem?_take, if_pos (by omega)] at hl
        exact hl
      · simp only [List.length_map, List.length_take]
        omega
      · intro i x hx
        simp only [List.map_map, List.getElem?_map, List.getElem?_take] at hx
        by_cases hi : i < min f.cells.length 1000
        · rw [if_pos hi] at hx
          obtain ⟨row, hrow⟩ : ∃ row, f.cells[i]? = some row := ⟨f.cells[i]'(by omega), List.getElem?_eq_getElem (by omega)⟩
          have hrl : row.length = f.labels.length := hm _ (List.mem_of_getElem? hrow)
          obtain ⟨v, hv⟩ : ∃ v, row[co + j]? = some v := ⟨row[co + j]'(by omega), List.getElem?_eq_getElem (by omega)⟩
          rw [hrow] at hx
          simp only [Option.map_some, Function.comp, Option.some.injEq, List.getElem?_take] at hx
          rw [if_pos (by omega), hv] at hx
          exact ⟨row, v, hrow, hv, hx.symm⟩
        · rw [if_neg hi] at hx
          cases hx

/-- C129. A request for one row of a matrix shows the first cells of the next rows instead. -/
theorem c129_row_witness :
    (showArray (.d2 [[1, 2, 3], [4, 5, 6], [7, 8, 9]]) true 0 0 (some (1, 3))).map
      (fun t => [t.cell 0 0, t.cell 0 1, t.cell 0 2]) = some [some (.scalar 1), some (.scalar 4), some (.scalar 7)] := by
  decide +kernel

/-- C129. A request for one cell of a matrix gives a whole row as the cell. -/
theorem c129_cell_witness :
    (showArray (.d2 [[1, 2, 3], [4, 5, 6]]) true 0 0 (some (1, 1))).map (fun t => t.cell 0 0) = some (some (.vec [1, 2, 3])) := by
  decide +kernel

/-- C129. A request for more than one column of an array of one element fails. -/
theorem c129_single_witness : (showArray (.d1 [7]) true 0 0 (some (1, 2))).isNone = true := by
  decide +kernel

/-- C129. A request for the last columns of a data frame fails if it asks for more columns than are left. -/
theorem c129_frame_witness :
    (showFrame ⟨[[1, 2, 3]], [c!"a", c!"b", c!"c"]⟩ 0 2 (some (1, 2))).isNone = true ∧
    (showFrame ⟨[[1, 2, 3]], [c!"a", c!"b", c!"c"]⟩ 0 2 (some (1, 1))).isNone = false := by
  decide +kernel

/-- C129. The label of a column is not quoted, so that one with a quote ends its attribute. -/
theorem c129_label_witness : colHeader 0 c!"a\" x=\"" = c!"<colheader index=\"0\" label=\"a\" x=\"\"" := by
  decide +kernel

/-! ### Examples -/

example : Rect [[1, 2, 3], [4, 5, 6], [7, 8, 9]] 3 := by
  intro row h
  simp at h
  rcases h with rfl | rfl | rfl <;> rfl

example : (showArray (.d2 [[1, 2, 3], [4, 5, 6], [7, 8, 9]]) true 1 1 (some (2, 100))).map
    (fun t => (t.rows, t.cols, [t.cell 0 0, t.cell 0 1, t.cell 1 0, t.cell 1 1])) =
      some (2, 2, [some (.scalar 5), some (.scalar 6), some (.scalar 8), some (.scalar 9)]) := by
  decide +kernel

example : (showFrame ⟨[[1, 2, 3], [4, 5, 6]], [c!"a", c!"b", c!"c"]⟩ 1 1 (some (5, 2))).map
    (fun t => (t.table.rows, t.table.cols, t.table.cell 0 1)) = some (1, 2, some (.scalar 6)) := by
  decide +kernel

example : (showFrame ⟨[[1, 2, 3], [4, 5, 6]], [c!"a", c!"b", c!"c"]⟩ 1 1 (some (5, 2))).map
    (fun t => t.headers) = some [(c!"b", [some 2, some 5]), (c!"c", [some 3, some 6])] := by
  decide +kernel

end Tables
