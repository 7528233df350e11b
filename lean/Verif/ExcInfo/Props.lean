import Verif.ExcInfo.Spec
import Verif.Stack.Props
/-!
The details of an exception: C96.
-/

namespace ExcInfo

open Stack Spec

theorem shown_visible (env : Env) (fl : FL) (f : Ref) (h : Stack.Spec.Visible env.base f) :
    shown env fl f = some ⟨(place env fl f).1, (place env fl f).2,
      (env.base.info f).name ++ (if fl.current = some f then c!" (Current frame)" else []),
      env.getline (env.base.info f).path (place env fl f).2, env.lineCol f,
      if fl.current = some f then some (env.base.info f).name else none⟩ := by
  obtain ⟨h1, h2⟩ := h
  have h3 : (!(env.base.info f).plugin && (env.base.info f).filtered) = false := by rcases h2 with h | h <;> simp [h]
  unfold shown place
  rw [if_neg (by simp [h1])]
  dsimp only
  rw [if_neg (by simp [h3])]
  by_cases hc : fl.current = some f
  · simp [hc]
  · have hc' : ¬ some f = fl.current := fun h => hc h.symm
    simp [hc, hc']

theorem shown_hidden (env : Env) (fl : FL) (f : Ref) (h : ¬ Stack.Spec.Visible env.base f) : shown env fl f = none := by
  unfold shown
  split
  · rfl
  · rename_i h1
    dsimp only
    split
    · rfl
    · rename_i h2
      refine absurd ⟨by simpa using h1, ?_⟩ h
      cases h3 : (env.base.info f).plugin <;> simp_all

/-- The frames collected for a list. -/
def frOf (env : Env) (fl : FL) (f : Ref) : Fr :=
  ⟨(place env fl f).1, (place env fl f).2,
      (env.base.info f).name ++ (if fl.current = some f then c!" (Current frame)" else []),
      env.getline (env.base.info f).path (place env fl f).2, env.lineCol f,
      if fl.current = some f then some (env.base.info f).name else none⟩

theorem collected (env : Env) (fl : FL) (l : List Ref) :
    l.filterMap (shown env fl) =
      (l.filter (fun f => decide (Stack.Spec.Visible env.base f))).map (frOf env fl) := by
  induction l with
  | nil => rfl
  | cons f l ih =>
    by_cases h : Stack.Spec.Visible env.base f
    · rw [List.filterMap_cons_some (shown_visible env fl f h), List.filter_cons_of_pos (by simpa using h), ih]
      rfl
    · rw [List.filterMap_cons_none (shown_hidden env fl f h), List.filter_cons_of_neg (by simpa using h), ih]

theorem entry_single (env : Env) (f : Fr) (h : env.py311 = false ∨ ∀ last, f.lineCol = some (some last) → last ≤ f.line) :
    entry env f = .frame f.file f.line f.name f.text := by
  unfold entry
  split
  · rename_i last hp hl
    rcases h with h | h
    · simp [h] at hp
    · have := h last hl
      rw [if_neg (by omega)]
  · rfl

theorem are_frames (env : Env) (fl : FL) (l : List Ref) (h : env.py311 = false ∨ ∀ f ∈ l, ∀ last,
    env.lineCol f = some (some last) → last ≤ (place env fl f).2) :
    AreFrames env fl l (l.map (fun f => entry env (frOf env fl f))) := by
  induction l with
  | nil => exact trivial
  | cons f l ih =>
    refine ⟨?_, ih (h.imp id fun g f hf => g f (List.mem_cons_of_mem _ hf))⟩
    show IsFrame _ _ _ _ (entry env (frOf env fl f))
    rw [entry_single]
    · exact ⟨rfl, rfl, rfl⟩
    · exact h.imp id fun g => g f (by simp)

/-- `frames[-max:]`, for all frames and for a limit. -/
theorem lastFrames_eq (max : Nat) (fs : List Fr) :
    lastFrames max fs = if max = 0 then fs else fs.drop (fs.length - max) := by
  unfold lastFrames Py.slice Py.bound
  have hlen : ¬ ((fs.length : Int) < 0) := by omega
  rw [if_neg hlen]
  simp only [Int.toNat_natCast, Nat.min_self, List.take_length]
  by_cases h0 : max = 0
  · subst h0
    simp
  · rw [if_pos (by omega), if_neg h0]
    congr 1
    omega

/-- What the loop adds to the trace for the lists. -/
def part (env : Env) (max : Int) (fl : FL) (d : Str) : List Entry :=
  (lastFrames max (fl.frames.filterMap (shown env fl))).map (entry env) ++
    [.exc fl.exc (typeText env fl.exc) d, .msg fl.msg]

theorem loop_out (env : Env) (max : Int) (lists : List FL) (ds : List Str) (st : St)
    (hne : ∀ fl ∈ lists, fl.frames ≠ []) (hd : lists.map (fun fl => descText env fl.exc) = ds.map some) :
    (loop env max st lists).out = st.out ++ (lists.zip ds).map (fun p => part env max p.1 p.2) := by
  induction lists generalizing st ds with
  | nil => simp [loop]
  | cons fl lists ih =>
    cases ds with
    | nil => simp at hd
    | cons d ds =>
      simp only [List.map_cons, List.cons.injEq] at hd
      have h0 : fl.frames.isEmpty = false := by simpa using hne fl (by simp)
      rw [loop, if_neg (by simp [h0])]
      dsimp only
      rw [hd.1]
      dsimp only
      rw [ih ds _ (fun g hg => hne g (List.mem_cons_of_mem _ hg)) hd.2]
      have hout : ∀ s : St, (setDesc env fl (setName env fl s)).out = s.out := by
        intro s
        unfold setDesc setName
        split <;> split <;> rfl
      simp only [List.zip_cons_cons, List.map_cons]
      split <;> simp [hout, part]

/-- C96 (part): when every exception of the chain was raised and can be converted to a text and the statements are
not longer than a line, the trace has, for each exception, the last of the chain first, exactly one part, with the
frames the user may see in the order of the list, type, text and relation. With a limit `max` these are the last
`max` of the list. -/
theorem c96_trace_partial (env : Env) (max : Nat) (lists : List FL)
    (hne : ∀ fl ∈ lists, fl.frames ≠ []) (hd : ∀ fl ∈ lists, descText env fl.exc ≠ none)
    (hs : env.py311 = false ∨ ∀ fl ∈ lists, SingleLine env fl) :
    ∃ parts : List (List Entry), (details env max (some lists)).trace = parts.flatten ∧
      parts.length = lists.length ∧
      ∀ (i : Nat) fl p, lists.reverse[i]? = some fl → parts[i]? = some p →
        IsPart env fl (if max = 0 then visible env fl else (visible env fl).drop ((visible env fl).length - max)) p := by
  obtain ⟨ds, hds⟩ : ∃ ds : List Str, lists.map (fun fl => descText env fl.exc) = ds.map some := by
    clear hne hs
    induction lists with
    | nil => exact ⟨[], rfl⟩
    | cons fl lists ih =>
      obtain ⟨ds, h⟩ := ih (fun g hg => hd g (List.mem_cons_of_mem _ hg))
      obtain ⟨d, hd'⟩ := Option.ne_none_iff_exists'.1 (hd fl (by simp))
      exact ⟨d :: ds, by simp [h, hd']⟩
  have hlen : lists.length = ds.length := by simpa using congrArg List.length hds
  refine ⟨((lists.zip ds).map (fun p => part env max p.1 p.2)).reverse, ?_, by simp [hlen], ?_⟩
  · simp only [details]
    rw [loop_out env max lists ds St.init hne hds]
    rfl
  · intro i fl p hi hp
    have hil : i < lists.length := by
      have := (List.getElem?_eq_some_iff.1 hi).1
      simpa using this
    rw [List.getElem?_reverse (by simpa using hil)] at hi
    rw [List.getElem?_reverse (by simp [← hlen]; omega)] at hp
    simp only [List.length_map, List.length_zip, ← hlen, Nat.min_self, List.getElem?_map] at hp
    generalize lists.length - 1 - i = j at hi hp
    have hjl : j < lists.length := (List.getElem?_eq_some_iff.1 hi).1
    obtain ⟨d, hdj⟩ : ∃ d, ds[j]? = some d := ⟨ds[j]'(by omega), List.getElem?_eq_getElem (by omega)⟩
    have hz : (lists.zip ds)[j]? = some (fl, d) := List.getElem?_zip_eq_some.2 ⟨hi, hdj⟩
    rw [hz] at hp
    obtain rfl := Option.some.inj hp
    have hdd : descText env fl.exc = some d := by
      have := congrArg (fun l => l[j]?) hds
      simp only [List.getElem?_map, hi, hdj, Option.map_some, Option.some.injEq] at this
      exact this
    refine ⟨_, _, d, rfl, ?_, ?_, ?_⟩
    rotate_left
    · intro e q m h1 h2 h3
      rw [h1]
      simp only [typeText, h2, h3, Option.some.injEq, Option.getD_some]
      split <;> simp
    · intro e h1
      rw [h1] at hdd
      exact hdd
    have hmem : fl ∈ lists := List.mem_of_getElem? hi
    dsimp only
    rw [collected, lastFrames_eq]
    have hvis : ∀ l : List Ref, (∀ f ∈ l, f ∈ fl.frames) →
        AreFrames env fl l (List.map (entry env) (List.map (frOf env fl) l)) := by
      intro l hl
      rw [List.map_map]
      exact are_frames env fl l (hs.imp id fun g f hf => g fl hmem f (hl f hf))
    by_cases h0 : max = 0
    · rw [if_pos h0, if_pos h0]
      exact hvis _ (fun f hf => (List.mem_filter.1 hf).1)
    · rw [if_neg h0, if_neg h0]
      rw [← List.map_drop, List.length_map]
      exact hvis _ (fun f hf => (List.mem_filter.1 (List.mem_of_mem_drop hf)).1)

/-- The exceptions an entry is about. -/
def excOf : Entry → Option (Option Nat)
  | .exc e _ _ => some e
  | _ => none

/-- C96: every exception of the chain is in the trace once, what an exception came from before it. -/
theorem c96_chain_partial (env : Env) (max : Nat) (w : World) (n fuel e : Nat) (hcl : Stack.Spec.Closed w n)
    (he : e < n) (tb : List Tb) (frame : Option Nat) (kind : Kind) (lists : List FL)
    (hl : fromException w fuel tb frame e kind = some lists)
    (hne : ∀ fl ∈ lists, fl.frames ≠ []) (hd : ∀ fl ∈ lists, descText env fl.exc ≠ none) :
    (details env max (some lists)).trace.filterMap excOf = (lists.map (·.exc)).reverse ∧
    (lists.map (·.exc)).Nodup ∧ (lists.map (·.exc)).head? = some (some e) := by
  obtain ⟨ds, hds⟩ : ∃ ds : List Str, lists.map (fun fl => descText env fl.exc) = ds.map some := by
    clear hne hl
    induction lists with
    | nil => exact ⟨[], rfl⟩
    | cons fl lists ih =>
      obtain ⟨ds, h⟩ := ih (fun g hg => hd g (List.mem_cons_of_mem _ hg))
      obtain ⟨d, hd'⟩ := Option.ne_none_iff_exists'.1 (hd fl (by simp))
      exact ⟨d :: ds, by simp [h, hd']⟩
  have hlen : lists.length = ds.length := by simpa using congrArg List.length hds
  constructor
  · simp only [details]
    rw [loop_out env max lists ds St.init hne hds]
    have hpart : ∀ p : FL × Str, (part env max p.1 p.2).filterMap excOf = [p.1.exc] := by
      intro p
      have hfr : ∀ l : List Fr, (l.map (entry env)).filterMap excOf = [] := by
        intro l
        induction l with
        | nil => rfl
        | cons f l ih =>
          have : excOf (entry env f) = none := by
            unfold entry
            split
            · split <;> rfl
            · rfl
          rw [List.map_cons, List.filterMap_cons_none this, ih]
      unfold part
      rw [List.filterMap_append, hfr]
      rfl
    have hflat : ∀ l : List (FL × Str),
        ((l.map (fun p => part env max p.1 p.2)).reverse.flatten).filterMap excOf = (l.map (·.1.exc)).reverse := by
      intro l
      induction l with
      | nil => rfl
      | cons p l ih =>
        simp only [List.map_cons, List.reverse_cons, List.flatten_append, List.filterMap_append, ih]
        simp [hpart]
    rw [show (St.init.out ++ (lists.zip ds).map (fun p => part env max p.1 p.2)) =
      (lists.zip ds).map (fun p => part env max p.1 p.2) from rfl, hflat]
    congr 1
    have : (lists.zip ds).map (fun p => p.1.exc) = ((lists.zip ds).map (·.1)).map (·.exc) := by simp
    rw [this, List.map_fst_zip (by omega)]
  · unfold fromException at hl
    cases hft : fromTraceback w tb frame e kind with
    | none => simp [hft] at hl
    | some fl =>
      simp only [hft, Option.bind_some, Option.map_eq_some_iff] at hl
      obtain ⟨ls, hch, rfl⟩ := hl
      have hex : fl.exc = some e := by
        unfold fromTraceback at hft
        split at hft
        · obtain rfl := Option.some.inj hft
          rfl
        · obtain rfl := Option.some.inj hft
          rfl
        · simp at hft
      have := ((c45_chain w n e hcl he).2 fuel ls hch).2
      simp only [List.map_cons, hex, List.head?_cons]
      exact ⟨this, trivial⟩

theorem loop_name (env : Env) (max : Int) (fl : FL) (rest : List FL) (e : Nat) (q : Str) (hne : fl.frames ≠ [])
    (he : fl.exc = some e) (hq : (env.type e).qualname = some q) (hq0 : q ≠ []) :
    (loop env max St.init (fl :: rest)).name = some q := by
  have key : ∀ (ls : List FL) (st : St), st.name = some q → (loop env max st ls).name = some q := by
    intro ls
    induction ls with
    | nil => intro st h; exact h
    | cons g ls ih =>
      intro st h
      rw [loop]
      split
      · exact h
      · dsimp only
        have hset : ∀ s : St, s.name = some q → (setDesc env g (setName env g s)).name = some q := by
          intro s hs
          have ha : absent s.name = false := by simp [absent, hs, hq0]
          unfold setDesc setName
          rw [ha]
          dsimp only
          split <;> exact hs
        split
        · split <;> exact hset st h
        · apply ih
          split <;> exact hset st h
  rw [loop, if_neg (by simpa using hne)]
  dsimp only
  have hset : (setDesc env fl (setName env fl St.init)).name = some q := by
    have ha : absent St.init.name = true := rfl
    unfold setDesc setName
    rw [ha, he]
    dsimp only
    simp only [nameOf, hq]
    split <;> rfl
  split
  · split <;> exact hset
  · apply key
    split <;> exact hset

/-- C96: the exception is named by its type and text; the name has a remark when the program is paused in another
frame than the one that raised it. -/
theorem c96_id (env : Env) (max : Int) (fl : FL) (rest : List FL) (e : Nat) (q : Str) (hne : fl.frames ≠ [])
    (he : fl.exc = some e) (hq : (env.type e).qualname = some q) (hq0 : q ≠ []) :
    ∃ note, (details env max (some (fl :: rest))).id = q ++ note := by
  have h1 := loop_name env max fl rest e q hne he hq hq0
  simp only [details, h1]
  have ha : absent (some q) = false := by simp [absent, hq0]
  rw [ha]
  simp only [Option.getD_some, Bool.false_eq_true, if_false]
  split
  · exact ⟨[], by simp⟩
  · exact ⟨_, by rw [List.append_assoc, List.append_assoc]⟩

theorem loop_current (env : Env) (max : Int) (lists : List FL) (st : St) (h0 : st.current = [])
    (hc : ∀ fl ∈ lists, ∀ f ∈ visible env fl, fl.current ≠ some f) : (loop env max st lists).current = [] := by
  induction lists generalizing st with
  | nil => exact h0
  | cons fl lists ih =>
    rw [loop]
    split
    · exact h0
    · dsimp only
      have hset : ∀ s : St, (setDesc env fl (setName env fl s)).current = s.current := by
        intro s
        unfold setDesc setName
        split <;> split <;> rfl
      have hfold : ∀ (l : List Ref) (c : Str), (∀ f ∈ l, fl.current ≠ some f) →
          (l.map (frOf env fl)).foldl (fun c f => f.current.getD c) c = c := by
        intro l
        induction l with
        | nil => intro c _; rfl
        | cons f l ihl =>
          intro c hl
          have hf : (frOf env fl f).current = none := by
            simp [frOf, hl f (by simp)]
          rw [List.map_cons, List.foldl_cons, hf]
          exact ihl c (fun g hg => hl g (List.mem_cons_of_mem _ hg))
      have hcur : (fl.frames.filterMap (shown env fl)).foldl (fun c f => f.current.getD c)
          (setDesc env fl (setName env fl st)).current = [] := by
        rw [hset, h0, collected]
        exact hfold _ _ (hc fl (by simp))
      split
      · split <;> exact hcur
      · apply ih
        · split <;> exact hcur
        · exact fun g hg => hc g (List.mem_cons_of_mem _ hg)

/-- C96: without a frame marked as the current one the name is exactly the name of the type. -/
theorem c96_id_plain (env : Env) (max : Int) (fl : FL) (rest : List FL) (e : Nat) (q : Str) (hne : fl.frames ≠ [])
    (he : fl.exc = some e) (hq : (env.type e).qualname = some q) (hq0 : q ≠ [])
    (hc : ∀ l ∈ fl :: rest, ∀ f ∈ visible env l, l.current ≠ some f) :
    (details env max (some (fl :: rest))).id = q := by
  have h1 := loop_current env max (fl :: rest) St.init rfl hc
  have h2 := loop_name env max fl rest e q hne he hq hq0
  have ha : absent (some q) = false := by simp [absent, hq0]
  simp [details, h1, h2, ha]

/-- C96: the description is the text of the exception. -/
theorem c96_description (env : Env) (max : Int) (fl : FL) (rest : List FL) (e : Nat) (d : Str) (hne : fl.frames ≠ [])
    (he : fl.exc = some e) (hd : env.desc e = some d) (hd0 : d ≠ []) :
    (details env max (some (fl :: rest))).description = d := by
  have key : ∀ (ls : List FL) (st : St), st.description = some d → (loop env max st ls).description = some d := by
    intro ls
    induction ls with
    | nil => intro st h; exact h
    | cons g ls ih =>
      intro st h
      rw [loop]
      split
      · exact h
      · dsimp only
        have hset : ∀ s : St, s.description = some d → (setDesc env g (setName env g s)).description = some d := by
          intro s hs
          have ha : absent (setName env g s).description = false := by
            unfold setName
            split <;> simp [absent, hs, hd0]
          unfold setDesc
          rw [ha]
          dsimp only
          unfold setName
          split <;> exact hs
        split
        · split <;> exact hset st h
        · apply ih
          split <;> exact hset st h
  have h1 : (loop env max St.init (fl :: rest)).description = some d := by
    rw [loop, if_neg (by simpa using hne)]
    dsimp only
    have hset : (setDesc env fl (setName env fl St.init)).description = some d := by
      have ha : absent (setName env fl St.init).description = true := by
        unfold setName
        split <;> rfl
      unfold setDesc
      rw [ha, he]
      simp [hd]
    split
    · split <;> exact hset
    · apply key
      split <;> exact hset
  have ha : absent (some d) = false := by simp [absent, hd0]
  simp [details, h1, ha]

/-- C96: an exception that was never raised itself (it has no traceback) and all it came from are left out. -/
theorem c96_chain_cut_witness (env : Env) (max : Int) (fl c : FL) (rest : List FL) (h : c.frames = []) :
    details env max (some (fl :: c :: rest)) = details env max (some [fl]) := by
  have hl : loop env max St.init (fl :: c :: rest) = loop env max St.init [fl] := by
    have hc : ∀ st, loop env max st (c :: rest) = st := by
      intro st
      rw [loop, h]
      rfl
    rw [loop, loop]
    split
    · rfl
    · dsimp only
      split
      · rfl
      · rw [hc, loop]
  simp only [details, hl]

/-- C96: for an exception that cannot be converted to a text the trace is empty, also of what it came from. -/
theorem c96_unprintable_witness (env : Env) (max : Int) (fl : FL) (rest : List FL) (h : descText env fl.exc = none) :
    (details env max (some (fl :: rest))).trace = [] := by
  have : (loop env max St.init (fl :: rest)).out = [] := by
    rw [loop]
    split
    · rfl
    · dsimp only
      rw [h]
      dsimp only
      have hout : ∀ s : St, (setDesc env fl (setName env fl s)).out = s.out := by
        intro s
        unfold setDesc setName
        split <;> split <;> rfl
      split <;> simp [hout, St.init]
  simp [details, this]

/-! ### Examples -/

def info1 (name : Str) : Info := ⟨name, c!"/a.py", false, false, false⟩

/-- Frame 1 is in a function, called by frame 2; the file has four lines, and the statement frame 1 is at goes from
line 1 to line 2. -/
def env1 : Env where
  base := { info := fun f => match f with | .real 1 => info1 c!"inner" | .real _ => info1 c!"outer" | .wrapper _ _ _ => info1 c!"cause"
            lineno := fun _ => 0
            text := fun _ => []
            toClient := fun p l => (p, l)
            format := fun _ n _ _ => n }
  type := fun _ => ⟨some c!"ValueError", none, none, some (some c!"builtins")⟩
  desc := fun e => if e = 7 then some c!"bad" else some c!"first"
  getline := fun _ l => if l = 1 then c!"f(\n" else if l = 2 then c!"x)\n" else if l = 3 then c!"g()\n" else c!"h()\n"
  getlines := fun _ => [c!"f(\n", c!"x)\n", c!"g()\n", c!"h()\n"]
  lineCol := fun _ => none
  py311 := true

def main1 : FL := ⟨[.real 1, .real 2], [(.real 1, 1), (.real 2, 3)], some 7, none, .none⟩
def cause1 : FL := ⟨[.wrapper 8 0 ⟨5, 4⟩], [(.wrapper 8 0 ⟨5, 4⟩, 4)], some 8, none, .cause⟩

/-- Non-vacuity: an exception with a cause. -/
theorem c96_example : details env1 0 (some [main1, cause1]) =
    ⟨c!"ValueError", c!"bad",
      [.frame c!"/a.py" 4 c!"cause" c!"h()\n", .exc (some 8) c!"ValueError" c!"first", .msg .cause,
       .frame c!"/a.py" 1 c!"inner" c!"f(\n", .frame c!"/a.py" 3 c!"outer" c!"g()\n",
       .exc (some 7) c!"ValueError" c!"bad", .msg .none], c!"/a.py"⟩ := by decide

/-- C96 is violated: the frames of the exception itself are listed innermost first, so with a limit the place where
the exception was raised is left out and its callers are shown. -/
theorem c96_limit_witness : (details env1 1 (some [main1])).trace =
    [.frame c!"/a.py" 3 c!"outer" c!"g()\n", .exc (some 7) c!"ValueError" c!"bad", .msg .none] := by decide

/-- A negative limit leaves out frames at the other end. -/
theorem c96_negative_witness : (details env1 (-1) (some [main1])).trace =
    [.frame c!"/a.py" 3 c!"outer" c!"g()\n", .exc (some 7) c!"ValueError" c!"bad", .msg .none] := by decide

/-- C96 is violated: for a statement of two lines the text shown is that of the next two lines, with empty lines
between. -/
theorem c96_multiline_witness :
    (details { env1 with lineCol := fun f => if f = .real 1 then some (some 2) else none } 0 (some [main1])).trace =
    [.frame c!"/a.py" 1 c!"inner" c!"x)\n\ng()\n", .frame c!"/a.py" 3 c!"outer" c!"g()\n",
     .exc (some 7) c!"ValueError" c!"bad", .msg .none] := by decide

end ExcInfo
