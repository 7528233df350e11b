import Verif.Breakpoints.Lemmas
/-! Properties C17, C18, C19. -/

namespace Breakpoints
open Spec Py

/-! ### C17 -/

/-- After any history of requests, the breakpoint found at a line of a file is the last one set there by the
owner of the file and not removed since. -/
theorem c17_refines (env : Env) (ho : Owned env) (ops : List Op) (hv : Valid env (fun _ => []) ops)
    {a : Name} {f : File} (ha : Reach env a f) (l : Nat) :
    lookup (run env ops) f l = lastAt (specRun env ops (env.norm a)) f l :=
  lookup_rel env (rel_run env ho ops _ _ (rel_start env) hv) ha l

/-- In a file that no client file maps to there is never a breakpoint. -/
theorem c17_unreached (env : Env) (ho : Owned env) (ops : List Op) (hv : Valid env (fun _ => []) ops)
    {f : File} (hf : ¬ ∃ a, Reach env a f) (l : Nat) : lookup (run env ops) f l = none := by
  have hr := rel_run env ho ops _ _ (rel_start env) hv
  change Rel env (run env ops) _ at hr
  rw [lookup, hr.lines f, hr.noIds f hf]; rfl

theorem specRun_file_canon (env : Env) (hm : ∀ a l, env.mapped a l = none)
    (ops : List Op) (σ : Store) (hσ : ∀ n i f b, (i, f, b) ∈ σ n → ∃ a, env.norm a = n ∧ f = env.canon a)
    (hok : ∀ n, Dict.Ok (σ n)) (hc : ∀ a b, env.norm a = env.norm b → env.canon a = env.canon b) :
    Valid env σ ops := by
  induction ops generalizing σ with
  | nil => trivial
  | cons o os ih =>
    have ht : ∀ p adj, (target env p adj).1 = env.canon p.name := by
      intro p adj; simp [target, hm]
    refine ⟨?_, ih _ ?_ ?_⟩
    · cases o with
      | add p adj =>
        intro f b h
        obtain ⟨a, ha, hf⟩ := hσ _ _ _ _ (Dict.mem_of_get h)
        rw [ht, hf, hc a p.name ha]
      | remove name id =>
        intro f b h
        obtain ⟨a, ha, hf⟩ := hσ _ _ _ _ (Dict.mem_of_get h)
        rw [hf, hc a name ha]
      | removeAll name => trivial
      | clear => trivial
    · intro n i f b h
      cases o with
      | add p adj =>
        simp only [specStep] at h
        have htt := ht p adj
        revert h htt
        generalize target env p adj = t
        obtain ⟨g, l, rep, ok⟩ := t
        intro h htt
        simp only at h htt
        cases ok with
        | false => exact hσ n i f b (by simpa using h)
        | true =>
          simp only [if_true] at h
          split at h
          · rename_i hn
            rw [Dict.mem_set (hok n)] at h
            rcases h with h | ⟨h, _⟩
            · cases h; exact ⟨p.name, hn.symm, htt⟩
            · exact hσ n i f b h
          · exact hσ n i f b h
      | remove name id =>
        simp only [specStep] at h
        split at h
        · exact hσ n i f b (mem_erase.1 h).1
        · exact hσ n i f b h
      | removeAll name =>
        simp only [specStep] at h
        split at h
        · cases h
        · exact hσ n i f b h
      | clear => simp [specStep] at h
    · intro n
      cases o with
      | add p adj =>
        simp only [specStep]
        generalize target env p adj = t
        obtain ⟨g, l, rep, ok⟩ := t
        cases ok with
        | false => simpa using hok n
        | true =>
          simp only [if_true]
          split
          · exact Dict.ok_set (hok n) _ _
          · exact hok n
      | remove name id =>
        simp only [specStep]
        split
        · exact Dict.ok_erase (hok n) _
        · exact hok n
      | removeAll name =>
        simp only [specStep]
        split
        · exact Dict.ok_nil
        · exact hok n
      | clear => exact Dict.ok_nil

/-- Without source mapping every history of requests is covered by `c17_refines`, provided two names denote
the same client file exactly when they denote the same server file. -/
theorem c17_refines_no_mapping (env : Env) (hm : ∀ a l, env.mapped a l = none)
    (hc : ∀ a b, env.norm a = env.norm b ↔ env.canon a = env.canon b) (ops : List Op) (a : Name) (l : Nat) :
    lookup (run env ops) (env.canon a) l = lastAt (specRun env ops (env.norm a)) (env.canon a) l := by
  refine c17_refines env ?_ ops ?_ (.inl rfl) l
  · intro x y f hx hy
    rcases hx with rfl | ⟨_, _, h⟩
    · rcases hy with hy | ⟨_, _, h⟩
      · exact (hc x y).2 hy
      · rw [hm] at h; cases h
    · rw [hm] at h; cases h
  · exact specRun_file_canon env hm ops _ (by simp) (fun _ => Dict.ok_nil) (fun a b => (hc a b).1)

/-- The client file a request is about. -/
def about (env : Env) : Op → Option Norm
  | .add p _ => some (env.norm p.name)
  | .remove name _ => some (env.norm name)
  | .removeAll name => some (env.norm name)
  | .clear => none

theorem specStep_other (env : Env) (σ : Store) (o : Op) (n m : Norm) (h : about env o = some m) (hn : n ≠ m) :
    specStep env σ o n = σ n := by
  cases o with
  | add p adj =>
    simp only [about, Option.some.injEq] at h
    subst h
    simp only [specStep]
    generalize target env p adj = t
    obtain ⟨g, l, rep, ok⟩ := t
    cases ok <;> simp [hn]
  | remove name id =>
    simp only [about, Option.some.injEq] at h
    subst h
    simp [specStep, hn]
  | removeAll name =>
    simp only [about, Option.some.injEq] at h
    subst h
    simp [specStep, hn]
  | clear => simp [about] at h

/-- A request about one client file changes nothing in the files of another. -/
theorem c17_other_files (env : Env) (ho : Owned env) (ops : List Op) (o : Op)
    (hv : Valid env (fun _ => []) (ops ++ [o])) (hv0 : Valid env (fun _ => []) ops)
    {b : Name} {f : File} (hb : Reach env b f) (m : Norm) (hm : about env o = some m) (hbm : env.norm b ≠ m)
    (l : Nat) : lookup (run env (ops ++ [o])) f l = lookup (run env ops) f l := by
  rw [c17_refines env ho _ hv hb, c17_refines env ho _ hv0 hb]
  simp only [specRun, List.foldl_append, List.foldl_cons, List.foldl_nil]
  rw [specStep_other env _ o _ m hm hbm]

/-! #### DAP sessions -/

/-- File, line and payload of an entry of the specification. -/
def brief (e : Nat × File × Bp) : File × Nat × Nat := (e.2.1, e.2.2.line, e.2.2.payload)

/-- The same, computed from what the user asked for. -/
def briefWanted (env : Env) (x : Name × Wanted) : Option (File × Nat × Nat) :=
  (place env x).map (fun t => (t.1, t.2, x.2.payload))

theorem target_place (env : Env) (name : Name) (id : Nat) (w : Wanted) :
    place env (name, w) =
      (if (target env ⟨name, id, w.line, w.payload⟩ true).2.2.2
       then some ((target env ⟨name, id, w.line, w.payload⟩ true).1, (target env ⟨name, id, w.line, w.payload⟩ true).2.1)
       else none) := by
  simp only [place, target]
  cases env.mapped name w.line with
  | none => simp
  | some t => simp

theorem setLoop_rel (env : Env) (ho : Owned env) (name : Name) (ws : List Wanted) (s : Session) (σ : Store)
    (hr : Rel env s.store σ) (hid : ∀ n i f b, (i, f, b) ∈ σ n → i < s.nextId) :
    ∃ σ', Rel env (setLoop env name s ws).1.store σ' ∧
      (∀ n i f b, (i, f, b) ∈ σ' n → i < (setLoop env name s ws).1.nextId) ∧
      (∀ n, n ≠ env.norm name → σ' n = σ n) ∧
      (σ' (env.norm name)).map brief =
        (σ (env.norm name)).map brief ++ (ws.map (fun w => (name, w))).filterMap (briefWanted env) := by
  induction ws generalizing s σ with
  | nil => exact ⟨σ, hr, hid, fun _ _ => rfl, by simp⟩
  | cons w ws ih =>
    have hfresh : s.nextId ∉ (σ (env.norm name)).map (·.1) := by
      intro h
      obtain ⟨⟨i, f, b⟩, hm, rfl⟩ := List.mem_map.1 h
      exact Nat.lt_irrefl _ (hid _ _ _ _ hm)
    have hok : OpOk env σ (.add ⟨name, s.nextId, w.line, w.payload⟩ true) := by
      intro f b h
      rw [(Dict.get_none_iff _ _).2 hfresh] at h
      cases h
    have hr' := rel_step env ho hr _ hok
    have hstep := specStep_other env σ (.add ⟨name, s.nextId, w.line, w.payload⟩ true)
    simp only [setLoop]
    have hpl := target_place env name s.nextId w
    have hspec : specStep env σ (.add ⟨name, s.nextId, w.line, w.payload⟩ true) (env.norm name) =
        σ (env.norm name) ++ ((place env (name, w)).map
          (fun t => (s.nextId, t.1, (⟨s.nextId, t.2, w.payload⟩ : Bp)))).toList := by
      simp only [specStep]
      rw [hpl]
      generalize target env ⟨name, s.nextId, w.line, w.payload⟩ true = t
      obtain ⟨g, l, rep, ok⟩ := t
      cases ok with
      | false => simp
      | true => simp [Dict.set_of_not_mem _ _ _ hfresh]
    have hid' : ∀ n i f b, (i, f, b) ∈ specStep env σ (.add ⟨name, s.nextId, w.line, w.payload⟩ true) n →
        i < s.nextId + 1 := by
      intro n i f b hm
      by_cases hn : n = env.norm name
      · subst hn
        rw [hspec] at hm
        rcases List.mem_append.1 hm with h | h
        · exact Nat.lt_succ_of_lt (hid _ _ _ _ h)
        · cases hp : place env (name, w) with
          | none => rw [hp] at h; simp at h
          | some t =>
            rw [hp] at h
            simp at h
            omega
      · rw [hstep n (env.norm name) rfl hn] at hm
        exact Nat.lt_succ_of_lt (hid _ _ _ _ hm)
    obtain ⟨σ', h1, h2, h3, h4⟩ := ih
      { store := (addBreakpoint env s.store ⟨name, s.nextId, w.line, w.payload⟩ true).1, nextId := s.nextId + 1 }
      (specStep env σ (.add ⟨name, s.nextId, w.line, w.payload⟩ true)) hr' hid'
    refine ⟨σ', h1, h2, fun n hn => ?_, ?_⟩
    · rw [h3 n hn, hstep n (env.norm name) rfl hn]
    · rw [h4, hspec, List.map_append, List.append_assoc, List.map_cons, List.filterMap_cons]
      congr 1
      simp only [briefWanted]
      cases place env (name, w) with
      | none => simp
      | some t => simp [brief]

theorem dap_rel (env : Env) (ho : Owned env) (reqs : List Req) :
    ∃ σ, Rel env (dapRun env reqs).store σ ∧
      (∀ n i f b, (i, f, b) ∈ σ n → i < (dapRun env reqs).nextId) ∧
      (∀ n, (σ n).map brief = (current env n reqs).filterMap (briefWanted env)) := by
  rw [← List.reverse_reverse reqs]
  induction reqs.reverse with
  | nil => exact ⟨fun _ => [], rel_start env, by simp [dapRun], fun n => rfl⟩
  | cons r rs ih =>
    rw [List.reverse_cons]
    revert ih
    generalize rs.reverse = reqs
    intro ih
    obtain ⟨σ, hr, hid, hb⟩ := ih
    have hrun : dapRun env (reqs ++ [r]) = dapStep env (dapRun env reqs) r := by simp [dapRun]
    have hcur : ∀ n, current env n (reqs ++ [r]) = (match r with
        | .setBreakpoints name ws => if env.norm name = n then ws.map (fun w => (name, w)) else current env n reqs
        | .setFunctionBreakpoints _ => current env n reqs
        | .clear => []) := by
      intro n; simp only [current, List.foldl_append, List.foldl_cons, List.foldl_nil]
      cases r <;> rfl
    rw [hrun]
    cases r with
    | setBreakpoints name ws =>
      have hr' := rel_step env ho hr (.removeAll name) trivial
      have hid' : ∀ n i f b, (i, f, b) ∈ specStep env σ (.removeAll name) n → i < (dapRun env reqs).nextId := by
        intro n i f b h
        simp only [specStep] at h
        split at h
        · cases h
        · exact hid n i f b h
      obtain ⟨σ', h1, h2, h3, h4⟩ := setLoop_rel env ho name ws
        { dapRun env reqs with store := removeAll env (dapRun env reqs).store name } _ hr' hid'
      refine ⟨σ', h1, h2, fun n => ?_⟩
      rw [hcur]
      simp only
      by_cases hn : env.norm name = n
      · subst hn
        rw [h4]
        simp [specStep]
      · rw [h3 n (Ne.symm hn), if_neg hn]
        simp only [specStep, Ne.symm hn, if_false]
        exact hb n
    | setFunctionBreakpoints k =>
      refine ⟨σ, hr, fun n i f b h => Nat.lt_of_lt_of_le (hid n i f b h) (Nat.le_add_right _ _), fun n => ?_⟩
      rw [hcur]; exact hb n
    | clear =>
      refine ⟨fun _ => [], rel_start env, by simp, fun n => ?_⟩
      rw [hcur]; rfl

/-- The whole of a DAP session, source mapping included: what is found at a line is the last breakpoint placed
there by the last `setBreakpoints` request of the file's owner — nothing when there was none. -/
theorem c17_dap (env : Env) (ho : Owned env) (reqs : List Req) {a : Name} {f : File} (ha : Reach env a f) (l : Nat) :
    (lookup (dapRun env reqs).store f l).map (·.payload) =
      ((current env (env.norm a) reqs).filter (fun x => place env x = some (f, l))).getLast?.map (·.2.payload) := by
  obtain ⟨σ, hr, _, hb⟩ := dap_rel env ho reqs
  rw [lookup_rel env hr ha l]
  have h := hb (env.norm a)
  generalize σ (env.norm a) = d at h
  generalize current env (env.norm a) reqs = c at h
  have h1 : (lastAt d f l).map (·.payload) =
      ((d.map brief).filter (fun t => t.1 = f ∧ t.2.1 = l)).getLast?.map (·.2.2) := by
    rw [List.filter_map, List.getLast?_map, Option.map_map, lastAt, Option.map_map]
    rfl
  have h2 : (c.filter (fun x => place env x = some (f, l))).map (fun x => x.2.payload) =
      ((c.filterMap (briefWanted env)).filter (fun t => t.1 = f ∧ t.2.1 = l)).map (·.2.2) := by
    clear h
    induction c with
    | nil => rfl
    | cons x c ih =>
      rw [List.filter_cons, List.filterMap_cons]
      cases hp : place env x with
      | none => simpa [briefWanted, hp] using ih
      | some t =>
        simp only [briefWanted, hp, Option.map_some]
        rw [List.filter_cons]
        by_cases ht : t = (f, l)
        · subst ht; simp [ih, briefWanted]
        · have : ¬ (t.1 = f ∧ t.2 = l) := fun hc => ht (Prod.ext hc.1 hc.2)
          simp only [Option.some.injEq, ht, this, decide_false, Bool.false_eq_true, if_false]
          exact ih
  rw [h1, h, ← List.getLast?_map, ← h2, List.getLast?_map]

/-! #### Where the hypotheses are needed: the code's behaviour outside them -/

/-- Two client names (1 and 2) of one server file, as through a symlink. -/
def aliasEnv : Env :=
  { norm := fun a => a, canon := fun _ => 0, mapped := fun _ _ => none, code := fun _ => none,
    nameOk := fun _ => true, fileOk := fun _ => true, filtered := fun _ => false }

/-- Setting breakpoints under one name after having set them under the other does not replace them; doing it
once more removes the breakpoints of both. -/
theorem c17_alias_names :
    (lookup (dapRun aliasEnv [.setBreakpoints 1 [⟨5, 0⟩], .setBreakpoints 2 []]).store 0 5).isSome = true ∧
    (lookup (dapRun aliasEnv [.setBreakpoints 1 [⟨5, 0⟩], .setBreakpoints 2 [⟨7, 1⟩], .setBreakpoints 1 []]).store 0 7)
      = none := by decide

/-- Nat 5 of client file 1 is mapped to line 50 of another file (a notebook cell). -/
def cellEnv : Env :=
  { norm := fun a => a, canon := fun a => a, mapped := fun _ l => if l = 5 then some (100, 50) else none,
    code := fun _ => none, nameOk := fun _ => true, fileOk := fun _ => true, filtered := fun _ => false }

/-- Removing a single breakpoint by id does nothing when it had been source mapped: it can still be hit. -/
theorem c17_remove_source_mapped :
    (lookup (run cellEnv [.add ⟨1, 9, 5, 0⟩ false, .remove 1 9]) 100 50).isSome = true := by decide

/-- Executable lines 4 and 8 only. -/
def gapEnv : Env :=
  { norm := fun a => a, canon := fun a => a, mapped := fun _ _ => none, code := fun _ => some [4, 8],
    nameOk := fun _ => true, fileOk := fun _ => true, filtered := fun _ => false }

/-- Re-applying the breakpoints (done when a source mapping is set for any file) undoes the adjustment of
lines: the breakpoint moves from the executable line 4 to line 6, where there is no code. -/
theorem c17_reapply_forgets_adjustment :
    (lookup (dapRun gapEnv [.setBreakpoints 1 [⟨6, 0⟩]]).store 1 4).isSome = true ∧
    (lookup (reapply gapEnv (dapRun gapEnv [.setBreakpoints 1 [⟨6, 0⟩]]).store) 1 4) = none ∧
    (lookup (reapply gapEnv (dapRun gapEnv [.setBreakpoints 1 [⟨6, 0⟩]]).store) 1 6).isSome = true := by
  have h1 : adjustLine (some [4, 8]) 6 = 4 := by
    simp [adjustLine, sortLines, bisectLeft, List.mergeSort, List.MergeSort.Internal.splitInTwo, List.merge]
  simp [dapRun, dapStep, setBreakpoints, setLoop, addBreakpoint, target, gapEnv, h1, lookup, setFile, breakDict,
    Dict.set, Dict.get, removeAll, popFiles, reapply, clearAll]

/-! ### C18 -/

theorem bisectLeft_spec (a : List Nat) (x : Nat) (hs : a.Pairwise (· ≤ ·)) (lo hi : Nat) (hlh : lo ≤ hi)
    (hh : hi ≤ a.length) (h1 : ∀ i v, i < lo → a[i]? = some v → v < x)
    (h2 : ∀ i v, hi ≤ i → a[i]? = some v → x ≤ v) :
    (∀ i v, i < bisectLeft a x lo hi → a[i]? = some v → v < x) ∧
    (∀ i v, bisectLeft a x lo hi ≤ i → a[i]? = some v → x ≤ v) ∧ bisectLeft a x lo hi ≤ a.length := by
  induction lo, hi using bisectLeft.induct a x with
  | case1 lo hi hlt mid v hv hvx ih =>
    rw [bisectLeft, dif_pos hlt]
    simp only [show a[(lo + hi) / 2]? = some v from hv, hvx, if_true]
    refine ih (by omega) hh ?_ h2
    intro i w hi' hw
    have hle : w ≤ v := by
      rcases Nat.lt_or_ge i mid with h | h
      · obtain ⟨hi1, rfl⟩ := List.getElem?_eq_some_iff.1 hw
        obtain ⟨hi2, rfl⟩ := List.getElem?_eq_some_iff.1 hv
        exact List.pairwise_iff_getElem.1 hs i mid hi1 hi2 h
      · have : i = mid := by omega
        subst this; rw [hv] at hw; cases hw; exact Nat.le_refl _
    omega
  | case2 lo hi hlt mid v hv hvx ih =>
    rw [bisectLeft, dif_pos hlt]
    simp only [show a[(lo + hi) / 2]? = some v from hv, hvx, if_false]
    refine ih (by omega) (by omega) h1 ?_
    intro i w hi' hw
    have hle : v ≤ w := by
      rcases Nat.lt_or_ge mid i with h | h
      · obtain ⟨hi1, rfl⟩ := List.getElem?_eq_some_iff.1 hw
        obtain ⟨hi2, rfl⟩ := List.getElem?_eq_some_iff.1 hv
        exact List.pairwise_iff_getElem.1 hs mid i hi2 hi1 h
      · have : i = mid := by omega
        subst this; rw [hv] at hw; cases hw; exact Nat.le_refl _
    omega
  | case3 lo hi hlt mid hn =>
    exfalso
    have : mid < a.length := by omega
    rw [List.getElem?_eq_none_iff] at hn
    omega
  | case4 lo hi hlt =>
    rw [bisectLeft, dif_neg hlt]
    exact ⟨h1, fun i v hi' => h2 i v (by omega), by omega⟩

theorem sortLines_sorted (ls : List Nat) : (sortLines ls).Pairwise (· ≤ ·) := by
  have := List.pairwise_mergeSort (le := fun a b : Nat => decide (a ≤ b))
    (by intro a b c; simp only [decide_eq_true_eq]; omega)
    (by intro a b; simp only [Bool.or_eq_true, decide_eq_true_eq]; omega) ls
  exact this.imp (by intro a b h; simpa using h)

theorem mem_sortLines (ls : List Nat) (l : Nat) : l ∈ sortLines ls ↔ l ∈ ls := by
  simp [sortLines, List.mem_mergeSort]

/-- A breakpoint on an executable line does not move. -/
theorem c18_executable_stays (ls : List Nat) (line : Nat) (h : line ∈ ls) : adjustLine (some ls) line = line := by
  have : (sortLines ls).contains line = true := by simpa [List.contains_iff_mem] using (mem_sortLines ls line).2 h
  simp only [adjustLine, this, if_true]

/-- Otherwise it moves to the greatest executable line before it, if there is one. -/
theorem c18_nearest_before (ls : List Nat) (line : Nat) (h : line ∉ ls) (hb : ∃ l ∈ ls, l < line) :
    adjustLine (some ls) line ∈ ls ∧ adjustLine (some ls) line < line ∧
      ∀ l ∈ ls, l < line → l ≤ adjustLine (some ls) line := by
  have hnc : (sortLines ls).contains line = false := by
    rw [← Bool.not_eq_true, List.contains_iff_mem, mem_sortLines]; exact h
  have hs := sortLines_sorted ls
  obtain ⟨p1, p2, p3⟩ := bisectLeft_spec (sortLines ls) line hs 0 (sortLines ls).length (Nat.zero_le _)
    (Nat.le_refl _) (by omega) (by
      intro i v hi hv
      rw [List.getElem?_eq_none_iff.2 hi] at hv; cases hv)
  simp only [adjustLine, hnc, Bool.false_eq_true, if_false]
  revert p1 p2 p3
  generalize bisectLeft (sortLines ls) line 0 (sortLines ls).length = idx
  intro p1 p2 p3
  obtain ⟨l, hl, hll⟩ := hb
  have hpos : 0 < idx := by
    rcases Nat.eq_zero_or_pos idx with h0 | h0
    · subst h0
      obtain ⟨i, hi, rfl⟩ := List.getElem_of_mem ((mem_sortLines ls l).2 hl)
      have := p2 i _ (Nat.zero_le _) (List.getElem?_eq_getElem hi)
      omega
    · exact h0
  have hlt : idx - 1 < (sortLines ls).length := by omega
  simp only [hpos, gt_iff_lt, if_true]
  rw [List.getD_eq_getElem?_getD, List.getElem?_eq_getElem hlt, Option.getD_some]
  refine ⟨(mem_sortLines ls _).1 (List.getElem_mem hlt), p1 _ _ (by omega) (List.getElem?_eq_getElem hlt), ?_⟩
  intro l' hl' hll'
  obtain ⟨i, hi, rfl⟩ := List.getElem_of_mem ((mem_sortLines ls l').2 hl')
  have hii : i < idx := by
    rcases Nat.lt_or_ge i idx with h | h
    · exact h
    · have := p2 i _ h (List.getElem?_eq_getElem hi)
      omega
  rcases Nat.lt_or_ge i (idx - 1) with h | h
  · exact List.pairwise_iff_getElem.1 hs i (idx - 1) hi hlt h
  · have : i = idx - 1 := by omega
    subst this; exact Nat.le_refl _

/-- When no executable line precedes it, or the code cannot be compiled, it stays. -/
theorem c18_none_before (ls : List Nat) (line : Nat) (hb : ∀ l ∈ ls, ¬ l < line) :
    adjustLine (some ls) line = line ∧ adjustLine none line = line := by
  refine ⟨?_, rfl⟩
  by_cases hin : line ∈ ls
  · exact c18_executable_stays ls line hin
  · have hnc : (sortLines ls).contains line = false := by
      rw [← Bool.not_eq_true, List.contains_iff_mem, mem_sortLines]; exact hin
    obtain ⟨p1, p2, p3⟩ := bisectLeft_spec (sortLines ls) line (sortLines_sorted ls) 0 (sortLines ls).length
      (Nat.zero_le _) (Nat.le_refl _) (by omega) (by
        intro i v hi hv
        rw [List.getElem?_eq_none_iff.2 hi] at hv; cases hv)
    simp only [adjustLine, hnc, Bool.false_eq_true, if_false]
    revert p1 p2 p3
    generalize bisectLeft (sortLines ls) line 0 (sortLines ls).length = idx
    intro p1 p2 p3
    rcases Nat.eq_zero_or_pos idx with h0 | h0
    · simp [h0]
    · exfalso
      have h : 0 < (sortLines ls).length := by omega
      have := p1 0 _ h0 (List.getElem?_eq_getElem h)
      exact hb _ ((mem_sortLines ls _).1 (List.getElem_mem h)) this

/-- The file of a code object. -/
def fileOf : Code → Nat
  | .mk f _ _ => f

/-- A line of a code object or of a code object nested in it through objects of the same file. -/
inductive HasLine : Code → Nat → Prop
  | own {f starts consts l} : some l ∈ starts → HasLine (.mk f starts consts) l
  | nested {f starts consts c l} : c ∈ consts → fileOf c = f → HasLine c l → HasLine (.mk f starts consts) l

theorem mem_constLines (file : Nat) (cs : List Code) (l : Nat) :
    l ∈ constLines file cs ↔ ∃ c ∈ cs, fileOf c = file ∧ l ∈ codeLines c := by
  induction cs with
  | nil => simp [constLines]
  | cons c cs ih =>
    obtain ⟨f, starts, consts⟩ := c
    simp only [constLines, List.mem_append, ih, List.mem_cons, exists_eq_or_imp, fileOf]
    split
    · rename_i h; simp [h]
    · rename_i h; simp [h]

theorem hasLine_of_mem (n : Nat) : ∀ c : Code, sizeOf c ≤ n → ∀ l, l ∈ codeLines c → HasLine c l := by
  induction n with
  | zero => intro c hc; cases c; simp at hc
  | succ n ih =>
    intro c hc l hl
    obtain ⟨f, starts, consts⟩ := c
    rw [codeLines, List.mem_append, mem_constLines] at hl
    rcases hl with h | ⟨c, hm, hf, hl⟩
    · refine .own ?_
      simpa using h
    · refine .nested hm hf (ih c ?_ l hl)
      have := List.sizeOf_lt_of_mem hm
      simp at hc
      omega

/-- The executable lines of a file are exactly the lines of its module code and of the functions and classes
nested in it, at any depth. -/
theorem c18_code_lines (c : Code) (l : Nat) : l ∈ codeLines c ↔ HasLine c l := by
  constructor
  · exact hasLine_of_mem _ c (Nat.le_refl _) l
  · intro h
    induction h with
    | own h => rw [codeLines, List.mem_append]; left; simpa using h
    | nested hm hf _ ih => rw [codeLines, List.mem_append, mem_constLines]; right; exact ⟨_, hm, hf, ih⟩

/-- The line reported for a breakpoint without source mapping is the line it is placed at. -/
theorem c18_reported (env : Env) (s : State) (p : Params) (adj : Bool) (hm : env.mapped p.name p.line = none) :
    (addBreakpoint env s p adj).2.line = if adj then adjustLine (env.code p.name) p.line else p.line := by
  simp only [addBreakpoint, target, hm]
  split <;> rfl

/-! ### C19 -/

theorem setLoop_answers (env : Env) (name : Name) (ws : List Wanted) (s : Session) :
    (setLoop env name s ws).2.map (·.id) = (List.range ws.length).map (s.nextId + ·) ∧
    (setLoop env name s ws).1.nextId = s.nextId + ws.length := by
  induction ws generalizing s with
  | nil => simp [setLoop]
  | cons w ws ih =>
    simp only [setLoop]
    obtain ⟨h1, h2⟩ := ih { store := (addBreakpoint env s.store ⟨name, s.nextId, w.line, w.payload⟩ true).1, nextId := s.nextId + 1 }
    refine ⟨?_, ?_⟩
    · simp only [List.map_cons, h1, List.length_cons, List.range_succ_eq_map, List.map_map]
      simp only [Nat.add_zero, List.cons.injEq, true_and]
      apply List.map_congr_left
      intro i _
      simp only [Function.comp]
      omega
    · rw [h2]; simp only [List.length_cons]; omega

/-- One answer per requested breakpoint, in order: answer number `i` is about requested breakpoint number `i`
(its line, adjusted), whatever was set before. -/
theorem c19_answers_in_order (env : Env) (s : Session) (name : Name) (ws : List Wanted) :
    (setBreakpoints env s name ws).2.length = ws.length ∧
    ∀ (i : Nat) (w : Wanted), ws[i]? = some w → ∃ a : Answer, (setBreakpoints env s name ws).2[i]? = some a ∧
      (env.mapped name w.line = none → a.line = adjustLine (env.code name) w.line) ∧
      ((env.mapped name w.line).isSome → a.line = w.line) ∧
      (a.verified = true ↔ ∃ f l, place env (name, w) = some (f, l) ∧ env.filtered f = false) := by
  unfold setBreakpoints
  generalize ({ s with store := removeAll env s.store name } : Session) = s
  induction ws generalizing s with
  | nil => simp [setLoop]
  | cons w ws ih =>
    have ih' := ih { store := (addBreakpoint env s.store ⟨name, s.nextId, w.line, w.payload⟩ true).1, nextId := s.nextId + 1 }
    simp only [setLoop, List.length_cons]
    refine ⟨by rw [ih'.1], ?_⟩
    intro i x hx
    cases i with
    | succ i => exact ih'.2 i x (by simpa using hx)
    | zero =>
      simp only [List.getElem?_cons_zero, Option.some.injEq] at hx
      subst hx
      refine ⟨_, rfl, ?_, ?_, ?_⟩
      · intro hm
        rw [c18_reported env s.store _ true hm]; rfl
      · intro hm
        obtain ⟨t, ht⟩ := Option.isSome_iff_exists.1 hm
        simp only [addBreakpoint, target, ht]
        split <;> rfl
      · simp only [addBreakpoint, target, place]
        cases hm : env.mapped name w.line with
        | none =>
          simp only
          cases env.nameOk name <;> cases hf : env.filtered (env.canon name) <;> simp [hf]
        | some t =>
          simp only
          cases env.fileOk t.1 <;> cases hf : env.filtered t.1 <;> simp [hf]

theorem allIds_range (env : Env) (reqs : List Req) (s : Session) :
    ∃ n, allIds env s reqs = (List.range n).map (s.nextId + ·) := by
  induction reqs generalizing s with
  | nil => exact ⟨0, rfl⟩
  | cons r rs ih =>
    obtain ⟨n, hn⟩ := ih (dapStep env s r)
    have key : ∀ k, answeredIds env s r = (List.range k).map (s.nextId + ·) → (dapStep env s r).nextId = s.nextId + k →
        ∃ n, allIds env s (r :: rs) = (List.range n).map (s.nextId + ·) := by
      intro k h1 h2
      refine ⟨k + n, ?_⟩
      rw [allIds, h1, hn, h2, List.range_add, List.map_append, List.map_map]
      congr 1
      apply List.map_congr_left
      intro i _
      simp only [Function.comp]
      omega
    cases r with
    | setBreakpoints name ws =>
      have h := setLoop_answers env name ws { s with store := removeAll env s.store name }
      exact key ws.length h.1 h.2
    | setFunctionBreakpoints k => exact key k rfl rfl
    | clear => exact key 0 rfl rfl

/-- No id is answered twice in a session. -/
theorem c19_ids_fresh (env : Env) (reqs : List Req) : (allIds env {} reqs).Nodup := by
  obtain ⟨n, hn⟩ := allIds_range env reqs {}
  rw [hn]
  refine List.Pairwise.map _ ?_ List.nodup_range
  intro a b h; simp; omega

/-! ### Concrete cases -/

/-- Client file 1 has lines 5.. mapped into server file 100; everything else is itself. -/
def sampleEnv : Env :=
  { norm := fun a => a, canon := fun a => a, mapped := fun a l => if a = 1 ∧ l = 5 then some (100, 50) else none,
    code := fun _ => none, nameOk := fun a => a < 100, fileOk := fun _ => true, filtered := fun _ => false }

theorem sampleEnv_reach (a f : Nat) : Reach sampleEnv a f ↔ f = a ∨ (a = 1 ∧ f = 100) := by
  simp only [Reach, sampleEnv]
  constructor
  · rintro (h | ⟨l, l', h⟩)
    · exact .inl h
    · split at h
      · rename_i hc; cases h; exact .inr ⟨hc.1, rfl⟩
      · cases h
  · rintro (h | ⟨rfl, rfl⟩)
    · exact .inl h
    · exact .inr ⟨5, 50, by simp⟩

/-- Names below 100 own their files (100 itself is no client file here). -/
def sampleEnv' : Env := { sampleEnv with norm := fun a => if a = 100 then 1 else a }

example : Owned sampleEnv' := by
  have hr : ∀ a f, Reach sampleEnv' a f ↔ f = a ∨ (a = 1 ∧ f = 100) := sampleEnv_reach
  intro a b f ha hb
  rw [hr] at ha hb
  simp only [sampleEnv']
  grind

example : lookup (dapRun sampleEnv' [.setBreakpoints 1 [⟨5, 7⟩, ⟨6, 8⟩, ⟨6, 9⟩], .setBreakpoints 2 [⟨6, 1⟩],
    .setBreakpoints 2 []]).store 1 6 = some ⟨2, 6, 9⟩ := by decide
example : lookup (dapRun sampleEnv' [.setBreakpoints 1 [⟨5, 7⟩, ⟨6, 8⟩, ⟨6, 9⟩]]).store 100 50 = some ⟨0, 50, 7⟩ := by decide
example : lookup (dapRun sampleEnv' [.setBreakpoints 1 [⟨5, 7⟩], .setBreakpoints 1 [⟨6, 7⟩]]).store 100 50 = none := by decide
example : Valid sampleEnv' (fun _ => []) [.add ⟨2, 1, 3, 0⟩ false, .add ⟨2, 1, 4, 0⟩ false, .remove 2 1] := by
  simp only [Valid, OpOk, and_true]
  refine ⟨by simp [Dict.get], ?_, ?_⟩
  · intro f bp h
    simp [specStep, target, sampleEnv', sampleEnv, Dict.set, Dict.get] at h
    simp [target, sampleEnv', sampleEnv, ← h.1]
  · intro f bp h
    simp [specStep, target, sampleEnv', sampleEnv, Dict.set, Dict.get] at h
    simp [sampleEnv', sampleEnv, ← h.1]
example : codeLines (.mk 0 [some 1, none, some 3] [.mk 0 [some 4] [.mk 0 [some 5] []], .mk 1 [some 9] []]) = [1, 3, 4, 5] := by
  decide
example : ∃ l ∈ [4, 8], l < 6 := ⟨4, by decide, by decide⟩
example : allIds sampleEnv' {} [.setBreakpoints 1 [⟨5, 7⟩, ⟨6, 8⟩], .setFunctionBreakpoints 2, .setBreakpoints 2 [⟨1, 1⟩]]
    = [0, 1, 2, 3, 4] := by decide

end Breakpoints
