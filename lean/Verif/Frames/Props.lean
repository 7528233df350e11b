import Verif.Frames.Spec
/-! Property C15: references resolve exactly while their thread is suspended. -/

namespace Frames
open Spec

structure Inv (s : State) : Prop where
  /-- the thread map holds exactly the live trackers -/
  threads : ∀ t k, (t, k) ∈ s.byThread ↔ t ∈ (s.tracker k).threads ∧ (s.tracker k).untracked = false
  /-- the frame map holds exactly the frames of live trackers -/
  frames : ∀ r k, s.byFrame r = some k ↔ r ∈ (s.tracker k).frames ∧ (s.tracker k).untracked = false
  frameVar : ∀ r k, r ∈ (s.tracker k).frames → ((s.tracker k).vars r).isSome
  framesNodup : ∀ k, (s.tracker k).frames.Nodup
  framesLive : ∀ k, (s.tracker k).frames ≠ [] → (s.tracker k).threads ≠ []
  agree : ∀ j k, Live s j → Live s k → ∀ r a b, (s.tracker j).vars r = some a → (s.tracker k).vars r = some b → a = b
  handed : ∀ k, Live s k → ∀ p, p ∈ s.handed k ↔ (s.tracker k).vars p.1 = some p.2
  ok : s.failed = false
  mainOk : ∀ k, Live s k → (s.tracker k).main.isSome
  fresh : ∀ k, (s.tracker k).threads = [] → s.handed k = [] ∧ ∀ r, (s.tracker k).vars r = none
  freshMain : ∀ k, (s.tracker k).threads = [] → (s.tracker k).main = none
  unique : ∀ t j k, (t, j) ∈ s.byThread → (t, k) ∈ s.byThread → j = k

theorem inv_start : Inv start := by
  constructor <;> simp [start, Live]

theorem setTracker_same (s : State) (k : K) (t : Tracker) : setTracker s k t k = t := by simp [setTracker]
theorem setTracker_ne (s : State) (k j : K) (t : Tracker) (h : j ≠ k) : setTracker s k t j = s.tracker j := by
  simp [setTracker, h]

/-- Registering a pair (as a plain variable or, with `fr`, as a frame) in tracker `k`. -/
theorem inv_register {s : State} (hi : Inv s) (k : K) (r : Ref) (o : Obj) (ha : AddrOk s r o)
    (hk : (s.tracker k).threads ≠ []) : Inv (register s k r o) := by
  obtain ⟨h1, h2, h3, h4, h5, h6, h7, h8, h9, h10, h12, h11⟩ := hi
  have hlive : ∀ j, Live (register s k r o) j ↔ Live s j := by
    intro j
    by_cases hj : j = k
    · subst hj; simp [Live, register, setTracker]
    · simp [Live, register, setTracker, hj]
  have hvars : ∀ j x, ((register s k r o).tracker j).vars x =
      if j = k ∧ x = r then some o else (s.tracker j).vars x := by
    intro j x
    by_cases hj : j = k
    · subst hj; by_cases hx : x = r <;> simp [register, setTracker, hx]
    · simp [register, setTracker, hj]
  have hrest : ∀ j, ((register s k r o).tracker j).frames = (s.tracker j).frames ∧
      ((register s k r o).tracker j).threads = (s.tracker j).threads ∧
      ((register s k r o).tracker j).untracked = (s.tracker j).untracked ∧
      ((register s k r o).tracker j).main = (s.tracker j).main := by
    intro j
    by_cases hj : j = k
    · subst hj; simp [register, setTracker]
    · simp [register, setTracker, hj]
  have hval : ∀ j, Live s j → ∀ x a, ((register s k r o).tracker j).vars x = some a →
      (x = r ∧ a = o) ∨ (x ≠ r ∧ (s.tracker j).vars x = some a) := by
    intro j hj x a hx
    rw [hvars] at hx
    split at hx
    · rename_i hc; exact .inl ⟨hc.2, (Option.some.inj hx).symm⟩
    · by_cases hxr : x = r
      · subst hxr; exact .inl ⟨rfl, ha j hj a hx⟩
      · exact .inr ⟨hxr, hx⟩
  constructor
  · intro t j; rw [(hrest j).2.1, (hrest j).2.2.1]; exact h1 t j
  · intro x j; rw [(hrest j).1, (hrest j).2.2.1]; exact h2 x j
  · intro x j hx
    rw [(hrest j).1] at hx
    rw [hvars]; split
    · rfl
    · exact h3 x j hx
  · intro j; rw [(hrest j).1]; exact h4 j
  · intro j; rw [(hrest j).1, (hrest j).2.1]; exact h5 j
  · intro j l hj hl x a b hx hx'
    rw [hlive] at hj hl
    rcases hval j hj x a hx with ⟨rfl, rfl⟩ | ⟨hne, hx1⟩
    · rcases hval l hl x b hx' with ⟨_, rfl⟩ | ⟨hne, _⟩
      · rfl
      · exact absurd rfl hne
    · rcases hval l hl x b hx' with ⟨rfl, _⟩ | ⟨_, hx2⟩
      · exact absurd rfl hne
      · exact h6 j l hj hl x a b hx1 hx2
  · intro j hj p
    rw [hlive] at hj
    rw [hvars]
    by_cases hjk : j = k
    · subst hjk
      simp only [register, if_true, List.mem_append, List.mem_singleton, true_and]
      rw [h7 j hj p]
      by_cases hp : p.1 = r
      · simp only [hp, if_true, Option.some.injEq]
        constructor
        · rintro (h | rfl)
          · exact (ha j hj p.2 h).symm
          · rfl
        · intro h; right; rw [h, ← hp]
      · simp only [hp, if_false]
        constructor
        · rintro (h | rfl)
          · exact h
          · exact absurd rfl hp
        · exact fun h => .inl h
    · simp only [register, hjk, if_false, false_and]
      exact h7 j hj p
  · exact h8
  · intro j hj; rw [hlive] at hj; rw [(hrest j).2.2.2]; exact h9 j hj
  · intro j hj
    rw [(hrest j).2.1] at hj
    have hjk : j ≠ k := by rintro rfl; exact hk hj
    refine ⟨by simp only [register, hjk, if_false]; exact (h10 j hj).1, fun x => ?_⟩
    rw [hvars]; simp only [hjk, false_and, if_false]; exact (h10 j hj).2 x
  · first
    | (intro j hj; rw [(hrest j).2.1] at hj; rw [(hrest j).2.2.2]; exact h12 j hj)
    | (intro j hj; rw [hth] at hj; rw [hma]; exact h12 j hj)
  · exact h11

/-- The first part of `track`: the thread is entered in the maps. -/
def enter (s : State) (k : K) (tid : Tid) (key : Tid) : State :=
  { s with
    byThread := dictSet s.byThread key k
    tracker := setTracker s k { s.tracker k with
      main := some tid
      threads := if (s.tracker k).threads.contains key then (s.tracker k).threads
                 else (s.tracker k).threads ++ [key] } }

theorem track_eq (s : State) (k : K) (tid : Tid) (custom : Option Tid) (frames : List (Ref × Obj)) :
    track s k tid custom frames = frames.foldl (trackFrame k) (enter s k tid (custom.getD tid)) := rfl

theorem inv_enter {s : State} (hi : Inv s) (k : K) (tid key : Tid) (hu : (s.tracker k).untracked = false)
    (hkey : key ∉ s.byThread.map (·.1)) :
    Inv (enter s k tid key) ∧ Live (enter s k tid key) k ∧
    (∀ j, ((enter s k tid key).tracker j).vars = (s.tracker j).vars) ∧
    (∀ j, j ≠ k → (Live (enter s k tid key) j ↔ Live s j)) ∧
    (enter s k tid key).byFrame = s.byFrame := by
  obtain ⟨h1, h2, h3, h4, h5, h6, h7, h8, h9, h10, h12, h11⟩ := hi
  have hnot : key ∉ (s.tracker k).threads := by
    intro hm
    exact hkey (List.mem_map.2 ⟨(key, k), (h1 key k).2 ⟨hm, hu⟩, rfl⟩)
  have hset : dictSet s.byThread key k = s.byThread ++ [(key, k)] := by
    unfold dictSet
    rw [if_neg (by simpa [List.contains_iff_mem] using hkey)]
  have hth : (s.tracker k).threads.contains key = false := by
    simpa [List.contains_iff_mem] using hnot
  have htr : ∀ j, (enter s k tid key).tracker j =
      if j = k then { s.tracker k with main := some tid, threads := (s.tracker k).threads ++ [key] }
      else s.tracker j := by
    intro j; simp only [enter, setTracker, hth, Bool.false_eq_true, if_false]
  have hvars : ∀ j, ((enter s k tid key).tracker j).vars = (s.tracker j).vars := by
    intro j; rw [htr]; split
    · rename_i h; rw [h]
    · rfl
  have hframes : ∀ j, ((enter s k tid key).tracker j).frames = (s.tracker j).frames := by
    intro j; rw [htr]; split
    · rename_i h; rw [h]
    · rfl
  have hunt : ∀ j, ((enter s k tid key).tracker j).untracked = (s.tracker j).untracked := by
    intro j; rw [htr]; split
    · rename_i h; rw [h]
    · rfl
  have hlk : Live (enter s k tid key) k := by
    simp [Live, htr, hu]
  have hlj : ∀ j, j ≠ k → (Live (enter s k tid key) j ↔ Live s j) := by
    intro j hj; simp [Live, htr, hj]
  have hvnone : (s.tracker k).threads = [] → ∀ r, (s.tracker k).vars r = none := fun h => (h10 k h).2
  refine ⟨?_, hlk, hvars, hlj, rfl⟩
  constructor
  · intro t j
    simp only [enter, hset, List.mem_append, List.mem_singleton, Prod.mk.injEq]
    rw [h1 t j]
    have := htr j
    simp only [enter] at this
    rw [this]
    by_cases hj : j = k
    · subst hj
      simp only [if_true, List.mem_append, List.mem_singleton, hu, and_true]
    · simp [hj]
  · intro r j; rw [hframes, hunt]; exact h2 r j
  · intro r j; rw [hframes, hvars]; exact h3 r j
  · intro j; rw [hframes]; exact h4 j
  · intro j; rw [hframes]; intro hj
    by_cases hjk : j = k
    · subst hjk; exact hlk.1
    · rw [htr]; simp only [hjk, if_false]; exact h5 j hj
  · intro i j hi hj r a b
    rw [hvars, hvars]
    intro ha hb
    by_cases hik : i = k
    · by_cases hjk : j = k
      · subst hik; subst hjk; rw [ha] at hb; exact Option.some.inj hb
      · subst hik
        have hli : Live s i := by
          refine ⟨fun h => ?_, hu⟩
          rw [hvnone h r] at ha; cases ha
        exact h6 i j hli ((hlj j hjk).1 hj) r a b ha hb
    · by_cases hjk : j = k
      · subst hjk
        have hlj' : Live s j := by
          refine ⟨fun h => ?_, hu⟩
          rw [hvnone h r] at hb; cases hb
        exact h6 i j ((hlj i hik).1 hi) hlj' r a b ha hb
      · exact h6 i j ((hlj i hik).1 hi) ((hlj j hjk).1 hj) r a b ha hb
  · intro j hj p
    rw [hvars]
    by_cases hjk : j = k
    · subst hjk
      by_cases ht : (s.tracker j).threads = []
      · simp only [enter]
        rw [(h10 j ht).1, (h10 j ht).2]; simp
      · exact h7 j ⟨ht, hu⟩ p
    · exact h7 j ((hlj j hjk).1 hj) p
  · exact h8
  · intro j hj
    rw [htr]
    split
    · rfl
    · rename_i hjk; exact h9 j ((hlj j hjk).1 hj)
  · intro j hj
    rw [htr] at hj
    by_cases hjk : j = k
    · subst hjk; simp at hj
    · simp only [hjk, if_false] at hj
      rw [hvars]; exact h10 j hj
  · intro j hj
    rw [htr] at hj ⊢
    by_cases hjk : j = k
    · subst hjk; simp at hj
    · simp only [hjk, if_false] at hj ⊢; exact h12 j hj
  · intro t i j hi hj
    have hk' : ∀ x, (key, x) ∉ s.byThread := fun x hx => hkey (List.mem_map.2 ⟨_, hx, rfl⟩)
    simp only [enter, hset, List.mem_append, List.mem_singleton, Prod.mk.injEq] at hi hj
    rcases hi with hi | ⟨ht, hi⟩ <;> rcases hj with hj | ⟨ht', hj⟩
    · exact h11 t i j hi hj
    · subst ht'; exact absurd hi (hk' _)
    · subst ht; exact absurd hj (hk' _)
    · rw [hi, hj]

theorem trackFrame_eq (k : K) (s : State) (f : Ref × Obj) :
    trackFrame k s f =
      { register s k f.1 f.2 with
        tracker := setTracker (register s k f.1 f.2) k { (register s k f.1 f.2).tracker k with
          frames := if (s.tracker k).frames.contains f.1 then (s.tracker k).frames
                    else (s.tracker k).frames ++ [f.1] }
        byFrame := fun r => if r = f.1 then some k else s.byFrame r } := by
  simp only [trackFrame, register]
  congr 1
  funext j
  by_cases hj : j = k
  · subst hj; simp [setTracker]
  · simp [setTracker, hj]

theorem inv_trackFrame {s : State} (hi : Inv s) (k : K) (f : Ref × Obj) (hl : Live s k)
    (ha : AddrOk s f.1 f.2) (hb : s.byFrame f.1 = none ∨ s.byFrame f.1 = some k) :
    Inv (trackFrame k s f) ∧ (∀ j, Live (trackFrame k s f) j ↔ Live s j) ∧
    (∀ j x, ((trackFrame k s f).tracker j).vars x = if j = k ∧ x = f.1 then some f.2 else (s.tracker j).vars x) ∧
    (∀ x, (trackFrame k s f).byFrame x = if x = f.1 then some k else s.byFrame x) := by
  have hr := inv_register hi k f.1 f.2 ha hl.1
  obtain ⟨h1, h2, h3, h4, h5, h6, h7, h8, h9, h10, h12, h11⟩ := hr
  have hfr : ∀ j, ((register s k f.1 f.2).tracker j).frames = (s.tracker j).frames := by
    intro j; by_cases hj : j = k
    · subst hj; simp [register, setTracker]
    · simp [register, setTracker, hj]
  have hvars : ∀ j x, ((trackFrame k s f).tracker j).vars x =
      if j = k ∧ x = f.1 then some f.2 else (s.tracker j).vars x := by
    intro j x
    by_cases hj : j = k
    · subst hj; by_cases hx : x = f.1 <;> simp [trackFrame, setTracker, hx]
    · simp [trackFrame, setTracker, hj]
  have hvr : ∀ j, ((trackFrame k s f).tracker j).vars = ((register s k f.1 f.2).tracker j).vars := by
    intro j; by_cases hj : j = k
    · subst hj; simp [trackFrame, register, setTracker]
    · simp [trackFrame, register, setTracker, hj]
  have hth : ∀ j, ((trackFrame k s f).tracker j).threads = ((register s k f.1 f.2).tracker j).threads := by
    intro j; by_cases hj : j = k
    · subst hj; simp [trackFrame, register, setTracker]
    · simp [trackFrame, register, setTracker, hj]
  have hun : ∀ j, ((trackFrame k s f).tracker j).untracked = ((register s k f.1 f.2).tracker j).untracked := by
    intro j; by_cases hj : j = k
    · subst hj; simp [trackFrame, register, setTracker]
    · simp [trackFrame, register, setTracker, hj]
  have hma : ∀ j, ((trackFrame k s f).tracker j).main = ((register s k f.1 f.2).tracker j).main := by
    intro j; by_cases hj : j = k
    · subst hj; simp [trackFrame, register, setTracker]
    · simp [trackFrame, register, setTracker, hj]
  have hlive : ∀ j, Live (trackFrame k s f) j ↔ Live (register s k f.1 f.2) j := by
    intro j; simp only [Live, hth, hun]
  have hlive2 : ∀ j, Live (register s k f.1 f.2) j ↔ Live s j := by
    intro j; by_cases hj : j = k
    · subst hj; simp [Live, register, setTracker]
    · simp [Live, register, setTracker, hj]
  have hframes : ∀ j x, x ∈ ((trackFrame k s f).tracker j).frames ↔
      (j = k ∧ x = f.1) ∨ x ∈ (s.tracker j).frames := by
    intro j x
    by_cases hj : j = k
    · subst hj
      simp only [trackFrame, setTracker, if_true]
      split
      · rename_i hc
        simp only [List.contains_iff_mem] at hc
        constructor
        · exact fun h => .inr h
        · rintro (⟨_, rfl⟩ | h)
          · exact hc
          · exact h
      · simp only [List.mem_append, List.mem_singleton, true_and]
        exact Or.comm
    · simp [trackFrame, setTracker, hj]
  have huk : ((register s k f.1 f.2).tracker k).untracked = false := (hlive2 k).2 hl |>.2
  have hby : (register s k f.1 f.2).byFrame = s.byFrame := rfl
  refine ⟨?_, fun j => (hlive j).trans (hlive2 j), hvars, fun x => rfl⟩
  constructor
  · intro t j; rw [hth, hun]; exact h1 t j
  · intro r j
    have h2' := h2 r j
    rw [hby, hfr] at h2'
    rw [hframes, hun]
    simp only [trackFrame]
    by_cases hr : r = f.1
    · simp only [hr, if_true, Option.some.injEq, and_true]
      constructor
      · rintro rfl; exact ⟨.inl rfl, huk⟩
      · rintro ⟨rfl | hm, hu⟩
        · rfl
        · have := (h2 f.1 j).2 (by rw [hfr]; exact ⟨hm, hu⟩)
          rw [hby] at this
          rcases hb with h | h
          · rw [h] at this; cases this
          · rw [h] at this; exact Option.some.inj this
    · simp only [hr, if_false, and_false, false_or]
      exact h2'
  · intro r j hm
    rw [hframes] at hm
    rw [hvars]
    split
    · rfl
    · rename_i hc
      rcases hm with hm | hm
      · exact absurd hm hc
      · exact hi.frameVar r j hm
  · intro j
    by_cases hj : j = k
    · subst hj
      simp only [trackFrame, setTracker, if_true]
      split
      · exact hi.framesNodup j
      · rename_i hc
        rw [List.nodup_append]
        refine ⟨hi.framesNodup j, by simp, ?_⟩
        intro a ha b hb
        simp only [List.mem_singleton] at hb
        subst hb
        rintro rfl
        exact hc (by simpa [List.contains_iff_mem] using ha)
    · simp only [trackFrame, setTracker, hj, if_false]; exact hi.framesNodup j
  · intro j hj
    rw [hth]
    by_cases hjk : j = k
    · subst hjk; exact ((hlive2 j).2 hl).1
    · refine h5 j ?_
      rw [hfr]
      simp only [trackFrame, setTracker, hjk, if_false] at hj
      exact hj
  · intro i j hi' hj'
    rw [hlive] at hi' hj'
    rw [hvr, hvr]; exact h6 i j hi' hj'
  · intro j hj
    rw [hlive] at hj
    rw [hvr]; exact h7 j hj
  · exact h8
  · intro j hj
    rw [hlive] at hj
    rw [hma]; exact h9 j hj
  · intro j hj
    rw [hth] at hj
    rw [hvr]; exact h10 j hj
  · first
    | (intro j hj; rw [(hrest j).2.1] at hj; rw [(hrest j).2.2.2]; exact h12 j hj)
    | (intro j hj; rw [hth] at hj; rw [hma]; exact h12 j hj)
  · exact h11

theorem inv_trackFrames (k : K) (fs : List (Ref × Obj)) (s : State) (hi : Inv s) (hl : Live s k)
    (ha : ∀ f ∈ fs, AddrOk s f.1 f.2 ∧ (s.byFrame f.1 = none ∨ s.byFrame f.1 = some k))
    (hd : ∀ f ∈ fs, ∀ g ∈ fs, f.1 = g.1 → f = g) :
    Inv (fs.foldl (trackFrame k) s) := by
  induction fs generalizing s with
  | nil => exact hi
  | cons f fs ih =>
    obtain ⟨ha1, hb1⟩ := ha f (by simp)
    obtain ⟨hi', hlive, hvars, hbf⟩ := inv_trackFrame hi k f hl ha1 hb1
    refine ih _ hi' ((hlive k).2 hl) ?_ (fun x hx y hy => hd x (by simp [hx]) y (by simp [hy]))
    intro g hg
    obtain ⟨ha2, hb2⟩ := ha g (by simp [hg])
    refine ⟨?_, ?_⟩
    · intro j hj o hx
      rw [hlive] at hj
      rw [hvars] at hx
      split at hx
      · rename_i hc
        have := hd g (by simp [hg]) f (by simp) hc.2
        rw [this]; exact (Option.some.inj hx).symm
      · exact ha2 j hj o hx
    · rw [hbf]
      split
      · exact .inr rfl
      · exact hb2

theorem delFrames_ok (m : Ref → Option K) (rs : List Ref) (hn : rs.Nodup) (hm : ∀ r ∈ rs, (m r).isSome) :
    delFrames m rs = (fun x => if x ∈ rs then none else m x, true) := by
  induction rs generalizing m with
  | nil => simp [delFrames]
  | cons r rs ih =>
    obtain ⟨k, hk⟩ := Option.isSome_iff_exists.1 (hm r (by simp))
    simp only [List.nodup_cons] at hn
    simp only [delFrames, hk]
    rw [ih _ hn.2]
    · congr 1
      funext x
      by_cases hx : x = r
      · subst hx; simp
      · simp [hx]
    · intro x hx
      have : x ≠ r := by rintro rfl; exact hn.1 hx
      simp only [this, if_false]
      exact hm x (by simp [hx])

theorem inv_untrack {s : State} (hi : Inv s) (k : K) : Inv (untrackAll s k) ∧
    ((s.tracker k).untracked = false → ∀ j, Live (untrackAll s k) j ↔ (j ≠ k ∧ Live s j)) := by
  unfold untrackAll
  by_cases hu : (s.tracker k).untracked = true
  · simp only [hu, if_true]
    exact ⟨hi, by simp⟩
  · have hu' : (s.tracker k).untracked = false := by simpa using hu
    have hdel := delFrames_ok s.byFrame (s.tracker k).frames (hi.framesNodup k) (by
      intro r hr; rw [(hi.frames r k).2 ⟨hr, hu'⟩]; rfl)
    simp only [hu', Bool.false_eq_true, if_false, hdel]
    obtain ⟨h1, h2, h3, h4, h5, h6, h7, h8, h9, h10, h12, h11⟩ := hi
    have hlive : ∀ (s' : State) (j : K), s'.tracker = setTracker s k { untracked := true, threads := (s.tracker k).threads } →
        (Live s' j ↔ (j ≠ k ∧ Live s j)) := by
      intro s' j hs'
      by_cases hj : j = k
      · subst hj; simp [Live, hs', setTracker]
      · simp [Live, hs', setTracker, hj]
    refine ⟨?_, fun _ j => hlive _ j rfl⟩
    constructor
    · intro t j
      simp only [List.mem_filter]
      rw [h1 t j]
      by_cases hj : j = k
      · subst hj
        simp only [setTracker_same, Bool.not_eq_true', List.contains_eq_mem, decide_eq_false_iff_not]
        constructor
        · rintro ⟨⟨a, _⟩, b⟩; exact absurd a b
        · rintro ⟨_, h⟩; cases h
      · rw [setTracker_ne _ _ _ _ hj]
        constructor
        · exact fun h => h.1
        · intro h
          refine ⟨h, ?_⟩
          simp only [Bool.not_eq_true', List.contains_eq_mem, decide_eq_false_iff_not]
          intro hm
          -- then both trackers would own the thread
          have ha := (h1 t j).2 h
          have hb := (h1 t k).2 ⟨hm, hu'⟩
          exact hj (h11 t j k ha hb)
    · intro r j
      simp only
      by_cases hj : j = k
      · subst hj
        simp only [setTracker_same]
        constructor
        · intro h
          split at h
          · cases h
          · rename_i hn
            exact absurd ((h2 r j).1 h).1 hn
        · rintro ⟨h, _⟩; simp at h
      · rw [setTracker_ne _ _ _ _ hj, ← h2 r j]
        split
        · rename_i hm
          have := (h2 r k).2 ⟨hm, hu'⟩
          rw [this]
          simp [Ne.symm hj]
        · rfl
    · intro r j hm
      by_cases hj : j = k
      · subst hj; simp [setTracker_same] at hm
      · simp only [setTracker_ne _ _ _ _ hj] at hm ⊢; exact h3 r j hm
    · intro j
      by_cases hj : j = k
      · subst hj; simp [setTracker_same]
      · simp only [setTracker_ne _ _ _ _ hj]; exact h4 j
    · intro j hm
      by_cases hj : j = k
      · subst hj; simp [setTracker_same] at hm
      · simp only [setTracker_ne _ _ _ _ hj] at hm ⊢; exact h5 j hm
    · intro i j hi' hj'
      rw [hlive _ _ rfl] at hi' hj'
      simp only [setTracker_ne _ _ _ _ hi'.1, setTracker_ne _ _ _ _ hj'.1]
      exact h6 i j hi'.2 hj'.2
    · intro j hj'
      rw [hlive _ _ rfl] at hj'
      simp only [setTracker_ne _ _ _ _ hj'.1]
      exact h7 j hj'.2
    · exact h8
    · intro j hj'
      rw [hlive _ _ rfl] at hj'
      simp only [setTracker_ne _ _ _ _ hj'.1]
      exact h9 j hj'.2
    · intro j hj'
      by_cases hj : j = k
      · subst hj
        simp only [setTracker_same] at hj' ⊢
        exact ⟨(h10 j hj').1, by simp⟩
      · simp only [setTracker_ne _ _ _ _ hj] at hj' ⊢; exact h10 j hj'
    · intro j hj'
      by_cases hj : j = k
      · subst hj; simp only [setTracker_same]
      · simp only [setTracker_ne _ _ _ _ hj] at hj' ⊢; exact h12 j hj'
    · intro t i j hi hj
      exact h11 t i j (List.mem_filter.1 hi).1 (List.mem_filter.1 hj).1

theorem inv_step {s : State} (hi : Inv s) (a : Action) (hok : Ok s a) : Inv (step s a) := by
  cases a with
  | track k tid custom frames =>
    obtain ⟨hu, hkey, hf, hd⟩ := hok
    simp only [step, track_eq]
    obtain ⟨he, hl, hv, hlj, hb⟩ := inv_enter hi k tid (custom.getD tid) hu hkey
    refine inv_trackFrames k frames _ he hl (fun f hf' => ⟨?_, by rw [hb]; exact (hf f hf').2⟩) hd
    intro j hj o hx
    rw [hv] at hx
    by_cases hjk : j = k
    · subst hjk
      by_cases ht : (s.tracker j).threads = []
      · rw [(hi.fresh j ht).2] at hx; cases hx
      · exact (hf f hf').1 j ⟨ht, hu⟩ o hx
    · exact (hf f hf').1 j ((hlj j hjk).1 hj) o hx
  | register k r o => exact inv_register hi k r o hok.1 hok.2
  | untrack k => exact (inv_untrack hi k).1

theorem inv_run (as : List Action) (s : State) (hi : Inv s) (hv : Valid s as) : Inv (run s as) := by
  induction as generalizing s with
  | nil => exact hi
  | cons a as ih => exact ih _ (inv_step hi a hv.1) hv.2

/-! ### The state against the history -/

theorem foldFrames_handed (k : K) (fs : List (Ref × Obj)) (s : State) (j : K) (p : Ref × Obj) :
    (p ∈ (fs.foldl (trackFrame k) s).handed j ↔ p ∈ s.handed j ∨ (j = k ∧ p ∈ fs)) ∧
    ((fs.foldl (trackFrame k) s).tracker j).threads = (s.tracker j).threads ∧
    ((fs.foldl (trackFrame k) s).tracker j).untracked = (s.tracker j).untracked ∧
    ((fs.foldl (trackFrame k) s).tracker j).main = (s.tracker j).main := by
  induction fs generalizing s with
  | nil => simp
  | cons f fs ih =>
    obtain ⟨h1, h2, h3, h4⟩ := ih (trackFrame k s f)
    simp only [List.foldl_cons, h1, h2, h3, h4]
    by_cases hj : j = k
    · subst hj
      simp [trackFrame, setTracker, or_assoc]
    · simp [trackFrame, setTracker, hj]

theorem step_facts {s : State} (hi : Inv s) (a : Action) (hok : Ok s a) (k : K) :
    (∀ p, p ∈ (step s a).handed k ↔ p ∈ s.handed k ∨ HandedOut [a] k p.1 p.2) ∧
    (((step s a).tracker k).threads ≠ [] ↔ (s.tracker k).threads ≠ [] ∨ ∃ tid c fs, a = .track k tid c fs) ∧
    (((step s a).tracker k).untracked = true ↔ (s.tracker k).untracked = true ∨ a = .untrack k) ∧
    (Live (step s a) k → ∀ t, ((step s a).tracker k).main = some t → (s.tracker k).main = some t ∨ ThreadOf [a] k t) := by
  cases a with
  | track j tid custom frames =>
    simp only [step, track_eq]
    have hf := fun p => foldFrames_handed j frames (enter s j tid (custom.getD tid)) k p
    refine ⟨fun p => ?_, ?_, ?_, ?_⟩
    · rw [(hf p).1]
      simp only [enter, HandedOut, List.mem_singleton, Action.track.injEq, reduceCtorEq, or_false]
      constructor
      · rintro (h | ⟨rfl, h⟩)
        · exact .inl h
        · exact .inr ⟨tid, custom, frames, ⟨rfl, rfl, rfl, rfl⟩, h⟩
      · rintro (h | ⟨_, _, fs, ⟨rfl, _, _, rfl⟩, h⟩)
        · exact .inl h
        · exact .inr ⟨rfl, h⟩
    · rw [(hf (0, 0)).2.1]
      by_cases hk : k = j
      · subst hk
        constructor
        · intro _; exact .inr ⟨tid, custom, frames, rfl⟩
        · intro _
          simp only [enter, setTracker, if_true]
          split
          · rename_i hc hx
            intro h; rw [h] at hx; simp at hx
          · simp
      · simp only [enter, setTracker, hk, if_false, Action.track.injEq]
        constructor
        · exact fun h => .inl h
        · rintro (h | ⟨_, _, _, h, _⟩)
          · exact h
          · exact absurd h.symm hk
    · rw [(hf (0, 0)).2.2.1]
      by_cases hk : k = j
      · subst hk; simp [enter, setTracker]
      · simp [enter, setTracker, hk]
    · intro _ t
      rw [(hf (0, 0)).2.2.2]
      by_cases hk : k = j
      · subst hk
        simp only [enter, setTracker, if_true, Option.some.injEq]
        rintro rfl
        exact .inr ⟨custom, frames, by simp⟩
      · simp only [enter, setTracker, hk, if_false]
        exact fun h => .inl h
  | register j r o =>
    by_cases hk : k = j
    · subst hk
      simp only [step, register, setTracker, if_true, HandedOut, List.mem_singleton, List.mem_append]
      refine ⟨fun p => ?_, by simp, by simp, fun _ t h => .inl h⟩
      simp [Prod.ext_iff]
    · simp only [step, register, setTracker, hk, if_false, HandedOut, List.mem_singleton]
      simp [hk]
      exact fun _ t h => .inl h
  | untrack j =>
    have hfr : (s.tracker j).untracked = false → delFrames s.byFrame (s.tracker j).frames =
        (fun x => if x ∈ (s.tracker j).frames then none else s.byFrame x, true) := fun hu =>
      delFrames_ok s.byFrame (s.tracker j).frames (hi.framesNodup j) (by
        intro r hr; rw [(hi.frames r j).2 ⟨hr, hu⟩]; rfl)
    simp only [step, untrackAll]
    by_cases hu : (s.tracker j).untracked = true
    · simp only [hu, if_true, HandedOut, List.mem_singleton]
      refine ⟨by simp, by simp, ?_, fun _ t h => .inl h⟩
      constructor
      · exact fun h => .inl h
      · rintro (h | h)
        · exact h
        · rw [← Action.untrack.inj h]; exact hu
    · have hu' : (s.tracker j).untracked = false := by simpa using hu
      simp only [hu', Bool.false_eq_true, if_false, hfr hu', HandedOut, List.mem_singleton]
      by_cases hk : k = j
      · subst hk
        refine ⟨by simp, by simp [setTracker], by simp [setTracker], ?_⟩
        intro h; simp [Live, setTracker] at h
      · refine ⟨by simp, by simp [setTracker, hk], by simp [setTracker, hk, Ne.symm hk], ?_⟩
        intro _ t h; simp only [setTracker, hk, if_false] at h; exact .inl h

theorem handedOut_cons (a : Action) (as : List Action) (k : K) (r : Ref) (o : Obj) :
    HandedOut (a :: as) k r o ↔ HandedOut [a] k r o ∨ HandedOut as k r o := by
  simp only [HandedOut, List.mem_cons, List.not_mem_nil, or_false]
  grind

theorem run_facts (as : List Action) (s : State) (hi : Inv s) (hv : Valid s as) (k : K) :
    (∀ p, p ∈ (run s as).handed k ↔ p ∈ s.handed k ∨ HandedOut as k p.1 p.2) ∧
    (((run s as).tracker k).threads ≠ [] ↔ (s.tracker k).threads ≠ [] ∨ ∃ tid c fs, Action.track k tid c fs ∈ as) ∧
    (((run s as).tracker k).untracked = true ↔ (s.tracker k).untracked = true ∨ Action.untrack k ∈ as) ∧
    (Live (run s as) k → ∀ t, ((run s as).tracker k).main = some t → (s.tracker k).main = some t ∨ ThreadOf as k t) := by
  induction as generalizing s with
  | nil =>
    refine ⟨fun p => ?_, ?_, ?_, fun _ t h => .inl h⟩ <;> simp [run, HandedOut]
  | cons a as ih =>
    obtain ⟨h1, h2, h3, h4⟩ := ih (step s a) (inv_step hi a hv.1) hv.2
    obtain ⟨g1, g2, g3, g4⟩ := step_facts hi a hv.1 k
    have hrun : run s (a :: as) = run (step s a) as := rfl
    rw [hrun]
    refine ⟨fun p => ?_, ?_, ?_, ?_⟩
    · rw [h1, g1, handedOut_cons a as, or_assoc]
    · rw [h2, g2]; simp only [List.mem_cons]; grind
    · rw [h3, g3]; simp only [List.mem_cons]; grind
    · intro hl t ht
      rcases h4 hl t ht with h | ⟨c, fs, h⟩
      · by_cases hl' : Live (step s a) k
        · rcases g4 hl' t h with h | ⟨c, fs, h⟩
          · exact .inl h
          · exact .inr ⟨c, fs, by simp only [List.mem_singleton] at h; simp [h]⟩
        · -- dead before the rest: either not tracked yet (no main thread) or cleared for good
          by_cases hth : ((step s a).tracker k).threads = []
          · exfalso
            have := (inv_step hi a hv.1).freshMain k hth
            rw [this] at h; cases h
          · exfalso
            have hu : ((step s a).tracker k).untracked = true := by
              cases hc : ((step s a).tracker k).untracked
              · exact absurd ⟨hth, hc⟩ hl'
              · rfl
            have := h3.2 (.inl hu)
            rw [hl.2] at this; cases this
      · exact .inr ⟨c, fs, by simp [h]⟩

/-! ### C15 -/

theorem live_iff {as : List Action} (hv : Valid start as) (k : K) : Live (run start as) k ↔ Suspended as k := by
  obtain ⟨_, h2, h3, _⟩ := run_facts as start inv_start hv k
  unfold Live Suspended
  rw [h2, ← Bool.not_eq_true, h3]
  simp [start]

theorem handed_iff {as : List Action} (hv : Valid start as) (k : K) (hl : Live (run start as) k) (r : Ref) (o : Obj) :
    ((run start as).tracker k).vars r = some o ↔ HandedOut as k r o := by
  have hi := inv_run as start inv_start hv
  rw [← hi.handed k hl (r, o), (run_facts as start inv_start hv k).1 (r, o)]
  simp [start]

/-- The tracker found for a reference is live and knows it. -/
theorem trackerFor_some {s : State} (hi : Inv s) {r : Ref} {k : K} (h : trackerFor s r = some k) :
    Live s k ∧ ((s.tracker k).vars r).isSome := by
  unfold trackerFor at h
  split at h
  · rename_i k' hk
    cases h
    obtain ⟨h1, h2⟩ := (hi.frames r k).1 hk
    exact ⟨⟨hi.framesLive k (List.ne_nil_of_mem h1), h2⟩, hi.frameVar r k h1⟩
  · simp only [Option.map_eq_some_iff] at h
    obtain ⟨e, he, rfl⟩ := h
    have hm := List.mem_of_find?_eq_some he
    have hp := List.find?_some he
    obtain ⟨h1, h2⟩ := (hi.threads e.1 e.2).1 hm
    exact ⟨⟨List.ne_nil_of_mem h1, h2⟩, hp⟩

theorem trackerFor_isSome {s : State} (hi : Inv s) {r : Ref} {k : K} (hl : Live s k)
    (h : ((s.tracker k).vars r).isSome) : (trackerFor s r).isSome := by
  unfold trackerFor
  split
  · rfl
  · obtain ⟨t, ht⟩ := List.exists_mem_of_ne_nil _ hl.1
    have hm := (hi.threads t k).2 ⟨ht, hl.2⟩
    simp only [Option.isSome_map, List.find?_isSome]
    exact ⟨_, hm, h⟩

/-- While a thread is suspended, every reference handed out during its suspension (frame or variable)
resolves, to the object it was handed out for. -/
theorem c15_resolves {as : List Action} (hv : Valid start as) {k : K} {r : Ref} {o : Obj}
    (hs : Suspended as k) (hh : HandedOut as k r o) : getVariable (run start as) r = some o := by
  have hi := inv_run as start inv_start hv
  have hl := (live_iff hv k).2 hs
  have hk := (handed_iff hv k hl r o).2 hh
  have hsome := trackerFor_isSome hi (r := r) hl (by rw [hk]; rfl)
  obtain ⟨j, hj⟩ := Option.isSome_iff_exists.1 hsome
  obtain ⟨hlj, hvj⟩ := trackerFor_some hi hj
  obtain ⟨o', ho'⟩ := Option.isSome_iff_exists.1 hvj
  simp only [getVariable, hj, ho']
  rw [hi.agree j k hlj hl r o' o ho' hk]

/-- A reference resolves only if some suspension that has not ended handed it out, and then to the object
it was handed out for. -/
theorem c15_only_suspended {as : List Action} (hv : Valid start as) {r : Ref} {o : Obj}
    (h : getVariable (run start as) r = some o) : ∃ k, Suspended as k ∧ HandedOut as k r o := by
  have hi := inv_run as start inv_start hv
  unfold getVariable at h
  split at h
  · cases h
  · rename_i k hk
    have hl := (trackerFor_some hi hk).1
    exact ⟨k, (live_iff hv k).1 hl, (handed_iff hv k hl r o).1 h⟩

/-- After the suspension that handed a reference out has ended, the reference is an error, unless another
thread that is still suspended handed it out as well. -/
theorem c15_expired {as : List Action} (hv : Valid start as) {r : Ref}
    (h : ∀ k o, HandedOut as k r o → Action.untrack k ∈ as) : getVariable (run start as) r = none := by
  cases hg : getVariable (run start as) r with
  | none => rfl
  | some o =>
    obtain ⟨k, hs, hh⟩ := c15_only_suspended hv hg
    exact absurd (h k o hh) hs.2

/-- The thread reported for a reference is one that is suspended now and was given that reference;
a thread is reported exactly for the references that resolve. -/
theorem c15_thread {as : List Action} (hv : Valid start as) (r : Ref) :
    ((threadFor (run start as) r).isSome ↔ (getVariable (run start as) r).isSome) ∧
    ∀ tid, threadFor (run start as) r = some tid →
      ∃ k o, Suspended as k ∧ HandedOut as k r o ∧ ThreadOf as k tid := by
  have hi := inv_run as start inv_start hv
  cases hk : trackerFor (run start as) r with
  | none => simp [threadFor, getVariable, hk]
  | some k =>
    obtain ⟨hl, hvr⟩ := trackerFor_some hi hk
    simp only [threadFor, getVariable, hk, hvr, hi.mainOk k hl, true_and]
    intro tid ht
    obtain ⟨o, ho⟩ := Option.isSome_iff_exists.1 hvr
    refine ⟨k, o, (live_iff hv k).1 hl, (handed_iff hv k hl r o).1 ho, ?_⟩
    rcases (run_facts as start inv_start hv k).2.2.2 hl tid ht with h | h
    · simp [start] at h
    · exact h

/-- Ending a suspension never fails. -/
theorem c15_no_error {as : List Action} (hv : Valid start as) : (run start as).failed = false :=
  (inv_run as start inv_start hv).ok

/-- Why the hypothesis that a frame belongs to one suspended thread is needed: if the same frame is tracked
by two trackers, ending the second suspension raises `KeyError` part-way. -/
theorem c15_frame_tracked_twice :
    (run start [.track 0 1 none [(10, 10)], .track 1 2 none [(10, 10)], .untrack 0, .untrack 1]).failed = true := by
  decide

/-- Two threads suspended; the first shares an object with the second and then resumes. -/
def sample : List Action :=
  [.track 0 1 none [(10, 10), (11, 11)], .track 1 2 none [(20, 20)], .register 0 30 30, .register 1 30 30,
   .register 0 31 31, .untrack 0]

theorem sample_valid : Valid start sample := by
  simp [Valid, sample, Ok, AddrOk, Live, start, step, track, trackFrame, setTracker, dictSet, register]
  grind

example : Suspended sample 1 ∧ HandedOut sample 1 30 30 ∧ getVariable (run start sample) 30 = some 30 := by
  have hs : Suspended sample 1 := ⟨⟨2, none, [(20, 20)], by simp [sample]⟩, by simp [sample]⟩
  have hh : HandedOut sample 1 30 30 := .inr (by simp [sample])
  exact ⟨hs, hh, c15_resolves sample_valid hs hh⟩
example : getVariable (run start sample) 31 = none := by decide
example : getVariable (run start sample) 10 = none := by decide
example : threadFor (run start sample) 30 = some 2 := by decide
example : getVariable (run start (sample.take 5)) 31 = some 31 := by decide

end Frames
