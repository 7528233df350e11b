import Verif.Reader.Spec

namespace Reader

/-- `loop` with the pattern matches written as projections. -/
theorem loop_eq (kill : Nat → Bool) (raises : Bytes → Bool) (n : Nat) (clen : Int)
    (buf : Bytes) (rs : List Bytes) :
    loop kill raises n clen buf rs =
      if (readLine buf rs).1 = [] then ([], .closed)
      else if kill n then loop kill raises (n + 1) clen (readLine buf rs).2.1 (readLine buf rs).2.2
      else if header.isPrefixOf (readLine buf rs).1 then
        match contentLen (readLine buf rs).1 with
        | none => ([], .readError)
        | some k =>
          (.header k :: (loop kill raises (n + 1) k (readLine buf rs).2.1 (readLine buf rs).2.2).1,
            (loop kill raises (n + 1) k (readLine buf rs).2.1 (readLine buf rs).2.2).2)
      else if clen ≠ -1 then
        if (readLine buf rs).1 = b!"\r\n" then
          let r := read clen (readLine buf rs).2.1 (readLine buf rs).2.2
          if r.1 = [] then ([], .emptyBody)
          else if kill (n + 1) then loop kill raises (n + 2) (-1) r.2.1 r.2.2
          else if raises r.1 then ([.json r.1], .readError)
          else
            (.json r.1 :: (loop kill raises (n + 2) (-1) r.2.1 r.2.2).1,
              (loop kill raises (n + 2) (-1) r.2.1 r.2.2).2)
        else loop kill raises (n + 1) clen (readLine buf rs).2.1 (readLine buf rs).2.2
      else
        if Py.utf8Valid (chomp (readLine buf rs).1) then
          (parseCommand (chomp (readLine buf rs).1) ::
              (loop kill raises (n + 1) clen (readLine buf rs).2.1 (readLine buf rs).2.2).1,
            (loop kill raises (n + 1) clen (readLine buf rs).2.1 (readLine buf rs).2.2).2)
        else ([], .decodeError) := by
  conv => lhs; rw [loop]
  split
  rename_i line buf1 rs1 h
  simp only [h]
  split
  · rfl
  · split
    · rfl
    · split
      · rfl
      · split
        · split
          · rfl
          · rfl
        · rfl

theorem splitLine_append_right {a l rest : Bytes} (h : splitLine a = some (l, rest)) (b : Bytes) :
    splitLine (a ++ b) = some (l, rest ++ b) := by
  induction a generalizing l rest with
  | nil => simp [splitLine] at h
  | cons x xs ih =>
    unfold splitLine at h
    simp only [List.cons_append]
    unfold splitLine
    split at h
    · rename_i hx
      simp only [Option.some.injEq, Prod.mk.injEq] at h; obtain ⟨rfl, rfl⟩ := h
      simp [hx]
    · rename_i hx
      cases hs : splitLine xs with
      | none => simp [hs] at h
      | some p =>
        simp only [hs, Option.map_some, Option.some.injEq, Prod.mk.injEq] at h
        obtain ⟨rfl, rfl⟩ := h
        simp [hx, ih (l := p.1) (rest := p.2) hs]

theorem readLine_none {buf : Bytes} (h : splitLine buf = none) :
    readLine buf [] = ([], buf, []) := by
  unfold readLine; rw [h]

theorem readLine_some {buf l rest : Bytes} (rs : List Bytes)
    (h : splitLine buf = some (l, rest)) : readLine buf rs = (l, rest, rs) := by
  cases rs <;> (unfold readLine; rw [h])

/-- Reading a line from chunks is reading it from the joined bytes. -/
theorem readLine_flat (buf : Bytes) (rs : List Bytes) (hrs : ∀ r ∈ rs, r ≠ []) :
    (readLine buf rs).1 = (readLine (buf ++ rs.flatten) []).1 ∧
    ((readLine buf rs).1 ≠ [] →
      (readLine buf rs).2.1 ++ (readLine buf rs).2.2.flatten = (readLine (buf ++ rs.flatten) []).2.1 ∧
      (readLine (buf ++ rs.flatten) []).2.2 = [] ∧
      ∀ r ∈ (readLine buf rs).2.2, r ≠ []) := by
  induction rs generalizing buf with
  | nil =>
    simp only [List.flatten_nil, List.append_nil]
    cases h : splitLine buf with
    | none => simp [readLine_none h]
    | some p => obtain ⟨l, rest⟩ := p; simp [readLine_some [] h]
  | cons r rs ih =>
    cases h : splitLine buf with
    | none =>
      have hr : r ≠ [] := hrs r (by simp)
      have : readLine buf (r :: rs) = readLine (buf ++ r) rs := by
        conv => lhs; unfold readLine
        rw [h]; simp [hr]
      rw [this]
      have := ih (buf ++ r) (fun x hx => hrs x (by simp [hx]))
      simpa [List.append_assoc] using this
    | some p =>
      obtain ⟨l, rest⟩ := p
      rw [readLine_some _ h, readLine_some [] (splitLine_append_right h _)]
      exact ⟨rfl, fun _ => ⟨rfl, rfl, hrs⟩⟩

/-- Reading a number of bytes from chunks is reading them from the joined bytes. -/
theorem read_flat (size : Int) (hs : 0 ≤ size) (buf : Bytes) (rs : List Bytes)
    (hrs : ∀ r ∈ rs, r ≠ []) :
    (read size buf rs).1 = (read size (buf ++ rs.flatten) []).1 ∧
    ((read size buf rs).1 ≠ [] →
      (read size buf rs).2.1 ++ (read size buf rs).2.2.flatten = (read size (buf ++ rs.flatten) []).2.1 ∧
      (read size (buf ++ rs.flatten) []).2.2 = [] ∧
      ∀ r ∈ (read size buf rs).2.2, r ≠ []) := by
  obtain ⟨k, rfl⟩ : ∃ k : Nat, size = k := ⟨size.toNat, by omega⟩
  induction rs generalizing buf with
  | nil =>
    simp only [List.flatten_nil, List.append_nil]
    unfold read
    split
    · simp
    · split
      · simp
      · simp
  | cons r rs ih =>
    have hr : r ≠ [] := hrs r (by simp)
    have hrl : 0 < r.length := List.length_pos_iff.2 hr
    by_cases h1 : (buf.length : Int) = k
    · have e1 : read (k : Int) buf (r :: rs) = (buf, [], r :: rs) := by
        unfold read; rw [if_pos h1]
      have hlen : buf.length = k := by omega
      have e2 : read (k : Int) (buf ++ (r :: rs).flatten) [] = (buf, (r :: rs).flatten, []) := by
        unfold read
        rw [if_neg, if_pos]
        · simp [sliceTo, sliceFrom, ← hlen]
        · simp only [List.length_append, List.flatten_cons]; omega
        · simp only [List.length_append, List.flatten_cons]; omega
      rw [e1, e2]
      exact ⟨rfl, fun _ => ⟨rfl, rfl, hrs⟩⟩
    · by_cases h2 : (buf.length : Int) > k
      · have e1 : read (k : Int) buf (r :: rs) = (buf.take k, buf.drop k, r :: rs) := by
          unfold read; rw [if_neg h1, if_pos h2]; simp [sliceTo, sliceFrom]
        have hlen : k ≤ buf.length := by omega
        have e2 : read (k : Int) (buf ++ (r :: rs).flatten) [] =
            (buf.take k, buf.drop k ++ (r :: rs).flatten, []) := by
          unfold read
          rw [if_neg, if_pos]
          · simp [sliceTo, sliceFrom, List.take_append_of_le_length hlen,
              List.drop_append_of_le_length hlen]
          · simp only [List.length_append]; omega
          · simp only [List.length_append]; omega
        rw [e1, e2]
        exact ⟨rfl, fun _ => ⟨rfl, rfl, hrs⟩⟩
      · have : read (k : Int) buf (r :: rs) = read (k : Int) (buf ++ r) rs := by
          conv => lhs; unfold read
          rw [if_neg h1, if_neg h2]; simp [hr]
        rw [this]
        have := ih (buf ++ r) (fun x hx => hrs x (by simp [hx]))
        simpa [List.append_assoc] using this

/-- The loop over chunks is the loop over the joined bytes. -/
theorem loop_flat (kill : Nat → Bool) (raises : Bytes → Bool) (n : Nat) (clen : Int)
    (hc : clen = -1 ∨ 0 ≤ clen)
    (buf : Bytes) (rs : List Bytes) (hrs : ∀ r ∈ rs, r ≠ [])
    (hnn : ∀ k, Ev.header k ∈ (loop kill raises n clen (buf ++ rs.flatten) []).1 → 0 ≤ k) :
    loop kill raises n clen buf rs = loop kill raises n clen (buf ++ rs.flatten) [] := by
  generalize hm : todo buf rs = m
  induction m using Nat.strongRecOn generalizing n clen buf rs with
  | ind m ih =>
    subst hm
    rw [loop_eq kill raises n clen (buf ++ rs.flatten) []] at hnn
    rw [loop_eq kill raises n clen buf rs, loop_eq kill raises n clen (buf ++ rs.flatten) []]
    have hrl := readLine_flat buf rs hrs
    have hdec := readLine_todo buf rs
    generalize hL : readLine buf rs = L at *
    generalize hF : readLine (buf ++ rs.flatten) [] = F at *
    obtain ⟨l, b1, r1⟩ := L
    obtain ⟨l', b1', r1'⟩ := F
    simp only at hrl hdec hnn ⊢
    obtain ⟨rfl, hrest⟩ := hrl
    by_cases hl : l = []
    · simp [hl]
    · obtain ⟨rfl, rfl, hr1⟩ := hrest hl
      have hdec := hdec hl
      rw [if_neg hl] at hnn
      rw [if_neg hl, if_neg hl]
      split
      · rename_i hk
        rw [if_pos hk] at hnn
        exact ih _ hdec _ _ hc _ _ hr1 hnn rfl
      · rename_i hk
        rw [if_neg hk] at hnn
        split
        · rename_i hh
          rw [if_pos hh] at hnn
          cases hk : contentLen l with
          | none => rfl
          | some k =>
            simp only [hk] at hnn
            have : 0 ≤ k := hnn k (by simp)
            simp only
            rw [ih _ hdec _ _ (.inr this) _ _ hr1 (fun k' hk' => hnn k' (by simp [hk'])) rfl]
        · rename_i hh
          rw [if_neg hh] at hnn
          split
          · rename_i hcl
            rw [if_pos hcl] at hnn
            split
            · rename_i hcr
              rw [if_pos hcr] at hnn
              have hck : 0 ≤ clen := by
                rcases hc with h | h
                · exact absurd h hcl
                · exact h
              have hrd := read_flat clen hck b1 r1 hr1
              have hdec2 := read_todo clen b1 r1
              generalize hL2 : read clen b1 r1 = L2 at *
              generalize hF2 : read clen (b1 ++ r1.flatten) [] = F2 at *
              obtain ⟨body, b2, r2⟩ := L2
              obtain ⟨body', b2', r2'⟩ := F2
              simp only at hrd hdec2 hnn ⊢
              obtain ⟨rfl, hrest2⟩ := hrd
              by_cases hb : body = []
              · simp [hb]
              · obtain ⟨rfl, rfl, hr2⟩ := hrest2 hb
                have hm2 : todo b2 r2 < todo buf rs := Nat.lt_of_le_of_lt hdec2 hdec
                rw [if_neg hb] at hnn
                rw [if_neg hb, if_neg hb]
                split
                · rename_i hk2
                  rw [if_pos hk2] at hnn
                  exact ih _ hm2 _ (-1) (.inl rfl) b2 r2 hr2 hnn rfl
                · rename_i hk2
                  rw [if_neg hk2] at hnn
                  split
                  · rfl
                  · rename_i hra
                    rw [if_neg hra] at hnn
                    rw [ih _ hm2 _ (-1) (.inl rfl) b2 r2 hr2
                      (fun k' hk' => hnn k' (by simp [hk'])) rfl]
            · rename_i hcr
              rw [if_neg hcr] at hnn
              exact ih _ hdec _ _ hc _ _ hr1 hnn rfl
          · rename_i hcl
            rw [if_neg hcl] at hnn
            split
            · rename_i hu
              rw [if_pos hu] at hnn
              rw [ih _ hdec _ _ hc _ _ hr1 (fun k' hk' => hnn k' (by simp [hk'])) rfl]
            · rfl

end Reader
