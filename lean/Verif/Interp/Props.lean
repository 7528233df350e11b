import Verif.Interp.Spec
/-!
C111: what is typed in the interactive console is run once, in order, in whole blocks.
-/

namespace Interp

open Spec

theorem run_snoc (i : Interpreter) (acts : List Act) (a : Act) :
    run i (acts ++ [a]) = act i (run i acts) a := by simp [run, List.foldl_append]

theorem view_snoc (i : Interpreter) (acts : List Act) (a : Act) :
    view i (acts ++ [a]) = (view i acts).act i a := by simp [view, List.foldl_append]

theorem view_s (i : Interpreter) (acts : List Act) : (view i acts).s = run i acts := by
  obtain ⟨l, rfl⟩ : ∃ l, acts = List.reverse l := ⟨acts.reverse, by simp⟩
  induction l with
  | nil => rfl
  | cons a l ih =>
    rw [List.reverse_cons, view_snoc, run_snoc, ← ih]
    simp only [View.act]
    split
    · rfl
    · split <;> rfl

/-! ### Texts and fragments of blocks -/

theorem text_snoc (b : List Typed) (t : Typed) (h : b ≠ []) :
    text (b ++ [t]) = text b ++ '\n' :: t.text := by
  induction b with
  | nil => exact absurd rfl h
  | cons x b ih =>
    cases b with
    | nil => rfl
    | cons y b =>
      have := ih (by simp)
      show x.text ++ '\n' :: text (y :: b ++ [t]) = (x.text ++ '\n' :: text (y :: b)) ++ '\n' :: t.text
      rw [this]; simp

theorem fragOf_snoc (b : List Typed) (t : Typed) (h : b ≠ []) :
    fragOf (b ++ [t]) = (fragOf b).append ⟨t.text, t.single⟩ := by
  simp only [fragOf, Frag.append, text_snoc b t h, List.all_append, List.all_cons, List.all_nil,
    Bool.and_true]
  cases t.single <;> simp

theorem fragOf_one (t : Typed) : fragOf [t] = ⟨t.text, t.single⟩ := by simp [fragOf, text]

theorem ran_append (a b : List Ev) : ran (a ++ b) = ran a ++ ran b := by simp [ran, List.filterMap_append]

/-! ### The invariant -/

/-- What was taken from the queue and did not begin to run. -/
def taken : Main → List (Option Frag)
  | .got g => [g]
  | _ => []

/-- The fragment of a request. -/
def reqFrag : Req → Option Frag
  | .line t => some ⟨t, true⟩
  | .lines t => some ⟨t, false⟩
  | .interrupt => none

/-- The buffer holds this beginning of a block. -/
def Holds (buffer : Option Frag) (rest : List Typed) : Prop :=
  (rest = [] ∧ buffer = none) ∨ (rest ≠ [] ∧ buffer = some (fragOf rest))

/-- Where the server's thread is, with the request it handles: `extra` is what it is about to put. -/
def Where (i : Interpreter) (rest : List Typed) (buffer : Option Frag) (cur : Option Req) : Srv → Prop
  | .idle => cur = none ∧ Holds buffer rest
  | .test f => (∃ r, cur = some r ∧ reqFrag r = some f) ∧ Holds buffer rest
  | .assign f => (∃ r, cur = some r ∧ reqFrag r = some f) ∧ rest = [] ∧ buffer = none
  | .append f => (∃ r, cur = some r ∧ reqFrag r = some f) ∧ rest ≠ [] ∧ buffer = some (fragOf rest)
  | .ask => ∃ r f, cur = some r ∧ reqFrag r = some f ∧
      buffer = some (fragOf (rest ++ [⟨f.text, f.single, true⟩]))
  | .take => ∃ r f, cur = some r ∧ reqFrag r = some f ∧
      buffer = some (fragOf (rest ++ [⟨f.text, f.single, false⟩])) ∧
      needMoreForCode i (text (rest ++ [⟨f.text, f.single, false⟩])) = some false
  | .clear g => ∃ r f, cur = some r ∧ reqFrag r = some f ∧
      g = some (fragOf (rest ++ [⟨f.text, f.single, false⟩])) ∧
      needMoreForCode i (text (rest ++ [⟨f.text, f.single, false⟩])) = some false
  | .put g => ∃ r f, cur = some r ∧ reqFrag r = some f ∧ buffer = none ∧
      g = some (fragOf (rest ++ [⟨f.text, f.single, false⟩])) ∧
      needMoreForCode i (text (rest ++ [⟨f.text, f.single, false⟩])) = some false
  | .intClear => cur = some .interrupt
  | .intSignal => cur = some .interrupt ∧ buffer = none
  | .intFinish => cur = some .interrupt ∧ buffer = none

structure Inv (i : Interpreter) (v : View) : Prop where
  inv : ∃ bs rest, Blocks (needMoreForCode i) v.hist bs rest ∧
    Where i rest v.s.buffer v.cur v.s.srv ∧
    (ran v.s.log).map some ++ taken v.s.main ++ v.s.queue = bs.map fun b => some (fragOf b)

/-- The text does not depend on the answers. -/
theorem text_more (rest : List Typed) (t : Text) (sg m m' : Bool) :
    text (rest ++ [⟨t, sg, m⟩]) = text (rest ++ [⟨t, sg, m'⟩]) := by
  cases rest with
  | nil => rfl
  | cons x rest => rw [text_snoc _ _ (by simp), text_snoc _ _ (by simp)]

theorem fragOf_more (rest : List Typed) (t : Text) (sg m m' : Bool) :
    fragOf (rest ++ [⟨t, sg, m⟩]) = fragOf (rest ++ [⟨t, sg, m'⟩]) := by
  simp [fragOf, text_more rest t sg m m']

/-- What the client sees when a request to run code was answered. -/
theorem seen_answer {r : Req} {f : Frag} (h : reqFrag r = some f) (log : List Ev) (m : Bool) :
    seen (log ++ [.answer m]) r = .typed ⟨f.text, f.single, m⟩ := by
  cases r <;> simp only [reqFrag, Option.some.injEq, reduceCtorEq] at h <;> subst h <;>
    simp [seen, lastAnswer]

/-- An action of the main thread, seen from the server: if neither buffer nor the server's place change. -/
theorem inv_main {i : Interpreter} {v : View} (h : Inv i v) (a : Act) (ha : ∀ r, a ≠ .req r)
    (hs : (act i v.s a).srv = v.s.srv) (hb : (act i v.s a).buffer = v.s.buffer)
    (hq : (ran (act i v.s a).log).map some ++ taken (act i v.s a).main ++ (act i v.s a).queue =
      (ran v.s.log).map some ++ taken v.s.main ++ v.s.queue) : Inv i (v.act i a) := by
  obtain ⟨bs, rest, h1, h2, h3⟩ := h.inv
  have hcur : (match a with
    | .req r => if v.s.srv = .idle then some r else v.cur
    | _ => v.cur) = v.cur := by
    cases a <;> first | rfl | exact absurd rfl (ha _)
  have hw : Where i rest (act i v.s a).buffer v.cur (act i v.s a).srv := by rw [hs, hb]; exact h2
  simp only [View.act, hcur]
  split
  · rename_i hc
    exact ⟨bs, rest, h1, by simpa only [hc] using hw, hq.trans h3⟩
  · rename_i r hc
    split
    · rename_i hi
      rw [hi] at hw
      exact absurd hw.1 (by simp [hc])
    · exact ⟨bs, rest, h1, by simpa only [hc] using hw, hq.trans h3⟩

theorem inv_srv {i : Interpreter} {v : View} (h : Inv i v)
    (hc : ∀ t, needMoreForCode i t ≠ none) : Inv i (v.act i .srv) := by
  obtain ⟨⟨buffer, queue, intr, srv, main, kbd, log⟩, cur, hist⟩ := v
  obtain ⟨bs, rest, h1, h2, h3⟩ := h.inv
  simp only at h1 h2 h3
  cases srv with
  | idle =>
    obtain ⟨rfl, hb⟩ := h2
    exact ⟨bs, rest, h1, ⟨rfl, hb⟩, h3⟩
  | test f =>
    obtain ⟨⟨r, rfl, hf⟩, hb⟩ := h2
    rcases hb with ⟨rfl, rfl⟩ | ⟨hr, rfl⟩
    · exact ⟨bs, [], h1, ⟨⟨r, rfl, hf⟩, rfl, rfl⟩, h3⟩
    · exact ⟨bs, rest, h1, ⟨⟨r, rfl, hf⟩, hr, rfl⟩, h3⟩
  | assign f =>
    obtain ⟨⟨r, rfl, hf⟩, rfl, rfl⟩ := h2
    exact ⟨bs, [], h1, ⟨r, f, rfl, hf, by simp [fragOf_one, act, View.act]⟩, h3⟩
  | append f =>
    obtain ⟨⟨r, rfl, hf⟩, hr, rfl⟩ := h2
    exact ⟨bs, rest, h1, ⟨r, f, rfl, hf, by simp [act, View.act, fragOf_snoc _ _ hr]⟩, h3⟩
  | ask =>
    obtain ⟨r, f, rfl, hf, rfl⟩ := h2
    cases hn : needMoreForCode i (text (rest ++ [⟨f.text, f.single, true⟩])) with
    | none => exact absurd hn (hc _)
    | some m =>
      have e : needMoreForCode i (fragOf (rest ++ [⟨f.text, f.single, true⟩])).text = some m := hn
      cases m with
      | true =>
        refine ⟨bs, rest ++ [⟨f.text, f.single, true⟩], ?_, ?_, ?_⟩
        · simp only [View.act, act, e, answer, if_true, seen_answer hf]
          exact Blocks.more _ h1 rfl hn
        · simp only [View.act, act, e, answer, if_true]
          exact ⟨rfl, Or.inr ⟨by simp, rfl⟩⟩
        · simp only [View.act, act, e, answer, if_true, ran_append]
          simpa [ran] using h3
      | false =>
        refine ⟨bs, rest, ?_, ?_, ?_⟩
        · simp only [View.act, act, e, reduceCtorEq, if_false]; exact h1
        · simp only [View.act, act, e, reduceCtorEq, if_false]
          exact ⟨r, f, rfl, hf, by rw [fragOf_more], by rw [text_more rest _ _ false true]; exact hn⟩
        · simp only [View.act, act, e, reduceCtorEq, if_false]; exact h3
  | take =>
    obtain ⟨r, f, rfl, hf, rfl, hn⟩ := h2
    exact ⟨bs, rest, h1, ⟨r, f, rfl, hf, rfl, hn⟩, h3⟩
  | clear g =>
    obtain ⟨r, f, rfl, hf, rfl, hn⟩ := h2
    exact ⟨bs, rest, h1, ⟨r, f, rfl, hf, rfl, rfl, hn⟩, h3⟩
  | put g =>
    obtain ⟨r, f, rfl, hf, rfl, rfl, hn⟩ := h2
    refine ⟨bs ++ [rest ++ [⟨f.text, f.single, false⟩]], [], ?_, ?_, ?_⟩
    · simp only [View.act, act, answer, if_true, seen_answer hf]
      exact Blocks.done _ h1 rfl hn
    · simp only [View.act, act, answer, if_true]
      exact ⟨rfl, Or.inl ⟨rfl, rfl⟩⟩
    · simp only [View.act, act, answer, if_true, ran_append]
      rw [List.map_append, List.map_append, ← h3]
      simp [ran]
  | intClear =>
    simp only [Where] at h2
    subst h2
    exact ⟨bs, rest, h1, ⟨rfl, rfl⟩, h3⟩
  | intSignal =>
    obtain ⟨rfl, rfl⟩ := h2
    exact ⟨bs, rest, h1, ⟨rfl, rfl⟩, h3⟩
  | intFinish =>
    obtain ⟨rfl, rfl⟩ := h2
    refine ⟨bs, [], ?_, ⟨rfl, Or.inl ⟨rfl, rfl⟩⟩, ?_⟩
    · simp only [View.act, act, if_true]
      exact Blocks.interrupt h1
    · simp only [View.act, act, if_true, ran_append]
      simpa [ran] using h3

theorem inv_req {i : Interpreter} {v : View} (h : Inv i v) (r : Req) : Inv i (v.act i (.req r)) := by
  obtain ⟨⟨buffer, queue, intr, srv, main, kbd, log⟩, cur, hist⟩ := v
  obtain ⟨bs, rest, h1, h2, h3⟩ := h.inv
  simp only at h1 h2 h3
  by_cases hi : srv = .idle
  · subst hi
    obtain ⟨rfl, hb⟩ := h2
    cases r with
    | line t => exact ⟨bs, rest, h1, ⟨⟨_, rfl, rfl⟩, hb⟩, h3⟩
    | lines t => exact ⟨bs, rest, h1, ⟨⟨_, rfl, rfl⟩, hb⟩, h3⟩
    | interrupt => exact ⟨bs, rest, h1, rfl, h3⟩
  · have e : act i ⟨buffer, queue, intr, srv, main, kbd, log⟩ (.req r) =
        ⟨buffer, queue, intr, srv, main, kbd, log⟩ := by simp only [act]; rw [if_neg hi]
    cases cur with
    | none => exact ⟨bs, rest, by simpa [View.act, hi, e] using h1, by simpa [View.act, hi, e] using h2,
        by simpa [View.act, hi, e] using h3⟩
    | some r' => exact ⟨bs, rest, by simpa [View.act, hi, e] using h1, by simpa [View.act, hi, e] using h2,
        by simpa [View.act, hi, e] using h3⟩

theorem inv_act {i : Interpreter} {v : View} (h : Inv i v) (hc : ∀ t, needMoreForCode i t ≠ none) (a : Act)
    (hk : a = .kbd → ∃ f, v.s.main = .running (some f)) (ho : a ≠ .kbdOutside) : Inv i (v.act i a) := by
  cases a with
  | req r => exact inv_req h r
  | srv => exact inv_srv h hc
  | main more =>
    apply inv_main h _ (by simp)
    · simp only [act]; split <;> (try split) <;> rfl
    · simp only [act]; split <;> (try split) <;> rfl
    · cases hm : v.s.main with
      | idle =>
        cases hq : v.s.queue with
        | nil => simp [act, hm, hq]
        | cons g q => simp [act, hm, hq, taken]
      | got g =>
        cases g with
        | none =>
          exfalso
          obtain ⟨bs, rest, _, _, h3⟩ := h.inv
          have : (none : Option Frag) ∈ bs.map fun b => some (fragOf b) := by
            rw [← h3, hm]; simp [taken]
          simp at this
        | some f => simp [act, hm, taken, ran_append, ran]
      | running g => cases g <;> simp [act, hm, taken]
      | ran m => simp [act, hm, taken, ran_append, ran]
      | ended => simp [act, hm]
  | exit =>
    apply inv_main h _ (by simp)
    · simp only [act]; split <;> rfl
    · simp only [act]; split <;> rfl
    · simp only [act]; split
      · rename_i f hm; rw [hm]; rfl
      · rfl
  | kbd =>
    obtain ⟨f, hf⟩ := hk rfl
    apply inv_main h _ (by simp)
    · simp only [act, hf]; split <;> rfl
    · simp only [act, hf]; split <;> rfl
    · simp only [act, hf]; split
      · rfl
      · rw [hf]
  | kbdCaught =>
    apply inv_main h _ (by simp)
    · simp only [act]; split <;> rfl
    · simp only [act]; split <;> rfl
    · simp only [act]; split <;> rfl
  | kbdOutside => exact absurd rfl ho

theorem inv_view (i : Interpreter) (hc : ∀ t, needMoreForCode i t ≠ none) (acts : List Act)
    (ht : Timely i acts) : Inv i (view i acts) := by
  obtain ⟨l, rfl⟩ : ∃ l, acts = List.reverse l := ⟨acts.reverse, by simp⟩
  induction l with
  | nil => exact ⟨[], [], Blocks.nil, ⟨rfl, Or.inl ⟨rfl, rfl⟩⟩, rfl⟩
  | cons a l ih =>
    rw [List.reverse_cons] at ht ⊢
    rw [view_snoc]
    apply inv_act _ hc
    · intro e
      subst e
      obtain ⟨f, hf⟩ := ht.2 l.reverse [] rfl
      exact ⟨f, by rw [view_s]; exact hf⟩
    · intro e; exact ht.1 (by simp [e])
    · apply ih
      refine ⟨fun h => ht.1 (by simp at h ⊢; exact Or.inl h), fun pre post e => ht.2 pre (post ++ [a]) ?_⟩
      rw [e]; simp

/-- **C111, blocks.** Whenever the server is idle, what was run, what the main thread took and what is in
the queue are the blocks of what was typed, in order, each once; every answer was the one for the text since
the block began; and the text which is kept is the beginning of the block being typed. The compiler must not
raise anything but the three errors, and interrupts must reach the main thread while it runs something. -/
theorem c111_blocks (i : Interpreter) (hc : ∀ t, needMoreForCode i t ≠ none) (acts : List Act)
    (ht : Timely i acts) (hidle : (run i acts).srv = .idle) :
    ∃ bs rest, Blocks (needMoreForCode i) (history i acts) bs rest ∧
      (ran (run i acts).log).map some ++ taken (run i acts).main ++ (run i acts).queue =
        (bs.map fragOf).map some ∧
      ((rest = [] ∧ (run i acts).buffer = none) ∨
       (rest ≠ [] ∧ (run i acts).buffer = some (fragOf rest))) := by
  obtain ⟨bs, rest, h1, h2, h3⟩ := (inv_view i hc acts ht).inv
  rw [view_s] at h2 h3
  rw [hidle] at h2
  exact ⟨bs, rest, h1, by rw [h3, List.map_map]; rfl, h2.2⟩

/-- The blocks of a history are what the word says, and are determined by what the client saw. -/
theorem c111_blocks_are {need : Text → Option Bool} {h : List Spec.Ev} {bs : List (List Typed)}
    {rest : List Typed} (hb : Blocks need h bs rest) :
    (∀ b ∈ bs, IsBlock b) ∧ (∀ t ∈ rest, t.more = true) := by
  induction hb with
  | nil => simp
  | more t _ ht _ ih =>
    refine ⟨ih.1, fun u hu => ?_⟩
    rcases List.mem_append.1 hu with hu | hu
    · exact ih.2 u hu
    · rw [List.mem_singleton.1 hu]; exact ht
  | @done h bs rest t _ ht _ ih =>
    refine ⟨fun b hb => ?_, by simp⟩
    rcases List.mem_append.1 hb with hb | hb
    · exact ih.1 b hb
    · rw [List.mem_singleton.1 hb]
      exact ⟨rest, t, rfl, ht, ih.2⟩
  | interrupt _ ih => exact ⟨ih.1, by simp⟩

theorem c111_blocks_unique {need : Text → Option Bool} {h : List Spec.Ev} {bs bs' : List (List Typed)}
    {rest rest' : List Typed} (hb : Blocks need h bs rest) (hb' : Blocks need h bs' rest') :
    bs = bs' ∧ rest = rest' := by
  induction hb generalizing bs' rest' with
  | nil =>
    generalize hh : ([] : List Spec.Ev) = h' at hb'
    cases hb' with
    | nil => exact ⟨rfl, rfl⟩
    | more t _ _ _ => simp at hh
    | done t _ _ _ => simp at hh
    | interrupt _ => simp at hh
  | @more h bs rest t h0 ht _ ih =>
    generalize hh : h ++ [Spec.Ev.typed t] = h' at hb'
    cases hb' with
    | nil => simp at hh
    | more t' h1 ht' _ =>
      obtain ⟨e1, e2⟩ := List.append_inj' hh rfl
      simp only [List.cons.injEq, Spec.Ev.typed.injEq, and_true] at e2
      subst e1 e2
      obtain ⟨rfl, rfl⟩ := ih h1
      exact ⟨rfl, rfl⟩
    | done t' h1 ht' _ =>
      obtain ⟨e1, e2⟩ := List.append_inj' hh rfl
      simp only [List.cons.injEq, Spec.Ev.typed.injEq, and_true] at e2
      subst e2
      rw [ht] at ht'; exact absurd ht' (by simp)
    | interrupt _ => exact absurd (List.append_inj' hh rfl).2 (by simp)
  | @done h bs rest t h0 ht _ ih =>
    generalize hh : h ++ [Spec.Ev.typed t] = h' at hb'
    cases hb' with
    | nil => simp at hh
    | more t' h1 ht' _ =>
      obtain ⟨e1, e2⟩ := List.append_inj' hh rfl
      simp only [List.cons.injEq, Spec.Ev.typed.injEq, and_true] at e2
      subst e2
      rw [ht] at ht'; exact absurd ht' (by simp)
    | done t' h1 ht' _ =>
      obtain ⟨e1, e2⟩ := List.append_inj' hh rfl
      simp only [List.cons.injEq, Spec.Ev.typed.injEq, and_true] at e2
      subst e1 e2
      obtain ⟨rfl, rfl⟩ := ih h1
      exact ⟨rfl, rfl⟩
    | interrupt _ => exact absurd (List.append_inj' hh rfl).2 (by simp)
  | @interrupt h bs rest h0 ih =>
    generalize hh : h ++ [Spec.Ev.interrupt] = h' at hb'
    cases hb' with
    | nil => simp at hh
    | more t' h1 ht' _ => exact absurd (List.append_inj' hh rfl).2 (by simp)
    | done t' h1 ht' _ => exact absurd (List.append_inj' hh rfl).2 (by simp)
    | interrupt h1 =>
      obtain ⟨e1, _⟩ := List.append_inj' hh rfl
      subst e1
      obtain ⟨rfl, rfl⟩ := ih h1
      exact ⟨rfl, rfl⟩

/-- **C111, how a block is run.** As a single statement exactly if all of it came line by line. -/
theorem c111_symbol (b : List Typed) : symbolSingle (fragOf b) = true ↔ ∀ t ∈ b, t.single = true := by
  simp [symbolSingle, fragOf]

/-! ### What is told -/

/-- What the main thread told: pairs of a beginning and an end, and the beginning of what runs. -/
theorem c111_finished (i : Interpreter) (hc : ∀ t, needMoreForCode i t ≠ none) (acts : List Act)
    (ht : Timely i acts) :
    ∃ (pairs : List (Frag × Bool)) (tail : List Ev),
      mainEvents (run i acts).log = pairs.flatMap (fun p => [.runs p.1, .finished p.2]) ++ tail ∧
      (((run i acts).main = .idle ∨ ∃ g, (run i acts).main = .got g) ∧ tail = [] ∨
       (∃ f, tail = [.runs f]) ∧ ((∃ f, (run i acts).main = .running (some f)) ∨ (∃ m, (run i acts).main = .ran m) ∨
          (run i acts).main = .ended)) := by
  obtain ⟨l, rfl⟩ : ∃ l, acts = List.reverse l := ⟨acts.reverse, by simp⟩
  induction l with
  | nil => exact ⟨[], [], rfl, Or.inl ⟨Or.inl rfl, rfl⟩⟩
  | cons a l ih =>
    rw [List.reverse_cons] at ht ⊢
    have ht' : Timely i l.reverse := by
      refine ⟨fun h => ht.1 (by simp at h ⊢; exact Or.inl h), fun pre post e => ht.2 pre (post ++ [a]) ?_⟩
      rw [e]; simp
    obtain ⟨pairs, tail, h1, h2⟩ := ih ht'
    have hk : a = .kbd → ∃ f, (run i l.reverse).main = .running (some f) := by
      intro e; subst e; exact ht.2 l.reverse [] rfl
    have ho : a ≠ .kbdOutside := fun e => ht.1 (by simp [e])
    have hv := (inv_view i hc l.reverse ht').inv
    rw [view_s] at hv
    rw [run_snoc]
    generalize run i l.reverse = s at *
    -- actions which leave the main thread and its events alone
    have keep : (act i s a).main = s.main → mainEvents (act i s a).log = mainEvents s.log →
        ∃ (pairs : List (Frag × Bool)) (tail : List Ev),
          mainEvents (act i s a).log = pairs.flatMap (fun p => [.runs p.1, .finished p.2]) ++ tail ∧
          (((act i s a).main = .idle ∨ ∃ g, (act i s a).main = .got g) ∧ tail = [] ∨
           (∃ f, tail = [.runs f]) ∧ ((∃ f, (act i s a).main = .running (some f)) ∨
             (∃ m, (act i s a).main = .ran m) ∨ (act i s a).main = .ended)) := by
      intro e1 e2
      rw [e1, e2]
      exact ⟨pairs, tail, h1, h2⟩
    cases a with
    | req r =>
      apply keep <;> simp only [act] <;> split <;> (try split) <;> rfl
    | srv =>
      apply keep
      · simp only [act, answer]; split <;> (try split) <;> (try split) <;> rfl
      · simp only [act, answer]
        split <;> (try split) <;> (try split) <;> simp [mainEvents, List.filter_append]
    | main more =>
      cases hm : s.main with
      | idle =>
        rw [hm] at h2
        have h2' : tail = [] := by simpa using h2
        cases hq : s.queue with
        | nil => exact keep (by simp [act, hm, hq]) (by simp [act, hm, hq])
        | cons g q =>
          simp only [act, hm, hq]
          exact ⟨pairs, tail, h1, Or.inl ⟨Or.inr ⟨g, rfl⟩, h2'⟩⟩
      | got g =>
        rw [hm] at h2
        have h2' : tail = [] := by simpa using h2
        subst h2'
        cases g with
        | none =>
          exfalso
          obtain ⟨bs, rest, _, _, h3⟩ := hv
          have : (none : Option Frag) ∈ bs.map fun b => some (fragOf b) := by
            rw [← h3, hm]; simp [taken]
          simp at this
        | some f =>
          simp only [act, hm]
          refine ⟨pairs, [.runs f], ?_, Or.inr ⟨⟨f, rfl⟩, Or.inl ⟨f, rfl⟩⟩⟩
          simp only [mainEvents, List.filter_append] at h1 ⊢
          rw [h1]; simp
      | running g =>
        rw [hm] at h2
        cases g with
        | none => simp at h2
        | some f =>
          have h2' : ∃ f, tail = [.runs f] := by simpa using h2
          simp only [act, hm]
          exact ⟨pairs, tail, h1, Or.inr ⟨h2', Or.inr (Or.inl ⟨more, rfl⟩)⟩⟩
      | ran m =>
        rw [hm] at h2
        have h2' : ∃ f, tail = [.runs f] := by simpa using h2
        obtain ⟨f, rfl⟩ := h2'
        simp only [act, hm]
        refine ⟨pairs ++ [(f, m)], [], ?_, Or.inl ⟨Or.inl trivial, rfl⟩⟩
        simp only [mainEvents, List.filter_append] at h1 ⊢
        rw [h1]; simp
      | ended => exact keep (by simp [act, hm]) (by simp [act, hm])
    | exit =>
      simp only [act]
      split
      · rename_i f hm
        rw [hm] at h2
        have h2' : ∃ f, tail = [.runs f] := by simpa using h2
        exact ⟨pairs, tail, h1, Or.inr ⟨h2', Or.inr (Or.inr rfl)⟩⟩
      · exact ⟨pairs, tail, h1, h2⟩
    | kbd =>
      obtain ⟨f, hm⟩ := hk rfl
      rw [hm] at h2
      have h2' : ∃ f, tail = [.runs f] := by simpa using h2
      simp only [act, hm]
      split
      · exact ⟨pairs, tail, h1, Or.inr ⟨h2', Or.inr (Or.inl ⟨false, rfl⟩)⟩⟩
      · exact ⟨pairs, tail, h1, Or.inr ⟨h2', Or.inl ⟨f, hm⟩⟩⟩
    | kbdCaught => apply keep <;> simp only [act] <;> split <;> rfl
    | kbdOutside => exact absurd rfl ho

/-- **C111, what is queued is run.** A main thread which waits runs the next block and tells that it
finished, whatever the server does meanwhile is put behind. -/
theorem c111_next (i : Interpreter) (s : St) (f : Frag) (q : List (Option Frag)) (more : Bool)
    (hm : s.main = .idle) (hq : s.queue = some f :: q) :
    let s' := [Act.main more, .main more, .main more, .main more].foldl (act i) s
    s'.main = .idle ∧ s'.queue = q ∧ s'.log = s.log ++ [.runs f, .finished more] := by
  simp [act, hm, hq]

/-- **C111, when more is needed.** With the standard interpreter: after a backslash, or when the compiler
finds the text to be the beginning of a statement. -/
theorem c111_more (compile : Text → Compiled) (t : Text) :
    needMoreForCode (.standard compile) t = some true ↔
      (∃ u, t = u ++ ['\\']) ∨ compile t = .incomplete := by
  have hl : t.getLast? = some '\\' ↔ ∃ u, t = u ++ ['\\'] := List.getLast?_eq_some_iff
  simp only [needMoreForCode]
  rw [← hl]
  split
  · simp [*]
  · cases h : compile t <;> simp_all

theorem interruptable_main (i : Interpreter) (hc : ∀ t, needMoreForCode i t ≠ none) (acts : List Act)
    (ht : Timely i acts) (h : (run i acts).interruptable = true) :
    (∃ f, (run i acts).main = .running (some f)) ∨ (∃ m, (run i acts).main = .ran m) ∨
      (run i acts).main = .ended := by
  obtain ⟨l, rfl⟩ : ∃ l, acts = List.reverse l := ⟨acts.reverse, by simp⟩
  induction l with
  | nil => simp [run] at h
  | cons a l ih =>
    rw [List.reverse_cons] at ht h ⊢
    have ht' : Timely i l.reverse := by
      refine ⟨fun h => ht.1 (by simp at h ⊢; exact Or.inl h), fun pre post e => ht.2 pre (post ++ [a]) ?_⟩
      rw [e]; simp
    have ih' := ih ht'
    obtain ⟨_, _, _, hfin⟩ := c111_finished i hc l.reverse ht'
    have hv := (inv_view i hc l.reverse ht').inv
    rw [view_s] at hv
    have hk : a = .kbd → ∃ f, (run i l.reverse).main = .running (some f) := by
      intro e; subst e; exact ht.2 l.reverse [] rfl
    have ho : a ≠ .kbdOutside := fun e => ht.1 (by simp [e])
    rw [run_snoc] at h ⊢
    generalize run i l.reverse = s at *
    have keep : (act i s a).main = s.main → (act i s a).interruptable = s.interruptable →
        (∃ f, (act i s a).main = .running (some f)) ∨ (∃ m, (act i s a).main = .ran m) ∨
          (act i s a).main = .ended := by
      intro e1 e2
      rw [e1]
      exact ih' (e2 ▸ h)
    cases a with
    | req r => apply keep <;> simp only [act] <;> split <;> (try split) <;> rfl
    | srv =>
      cases hsrv : s.srv with
      | intFinish => simp [act, hsrv] at h
      | idle => exact keep (by simp [act, hsrv]) (by simp [act, hsrv])
      | _ =>
        apply keep <;> simp only [act, hsrv, answer] <;> (try split) <;> (try split) <;> rfl
    | main more =>
      cases hm : s.main with
      | idle =>
        cases hq : s.queue with
        | nil => exact keep (by simp [act, hm, hq]) (by simp [act, hm, hq])
        | cons g q =>
          have : s.interruptable = true := by simpa [act, hm, hq] using h
          have := ih' this
          rw [hm] at this; simp at this
      | got g =>
        cases g with
        | none =>
          exfalso
          obtain ⟨bs, rest, _, _, h3⟩ := hv
          have : (none : Option Frag) ∈ bs.map fun b => some (fragOf b) := by
            rw [← h3, hm]; simp [taken]
          simp at this
        | some f => simp [act, hm]
      | running g =>
        cases g with
        | none => rw [hm] at hfin; simp at hfin
        | some f => simp [act, hm]
      | ran m => simp [act, hm] at h
      | ended => exact keep (by simp [act, hm]) (by simp [act, hm])
    | exit =>
      simp only [act] at h ⊢
      split
      · simp
      · rename_i hne
        split at h
        · exact absurd (by assumption) (hne _)
        · exact ih' h
    | kbd =>
      obtain ⟨f, hm⟩ := hk rfl
      simp only [act, hm]
      split
      · simp
      · exact Or.inl ⟨f, hm⟩
    | kbdCaught => apply keep <;> simp only [act] <;> split <;> rfl
    | kbdOutside => exact absurd rfl ho

/-- **C111, interrupts.** The main thread is signalled only while it runs something (or just after it, before
it tells), or when the console ends. -/
theorem c111_signalled (i : Interpreter) (hc : ∀ t, needMoreForCode i t ≠ none) (acts : List Act)
    (ht : Timely i acts) (a : Act) (h0 : (run i acts).kbd = false)
    (h1 : (run i (acts ++ [a])).kbd = true) :
    (∃ f, (run i acts).main = .running (some f)) ∨ (∃ m, (run i acts).main = .ran m) ∨
      (run i acts).main = .ended := by
  apply interruptable_main i hc acts ht
  rw [run_snoc] at h1
  generalize run i acts = s at *
  cases a with
  | srv =>
    cases hs : s.srv <;> simp only [act, hs, answer] at h1 <;> (try split at h1) <;> (try split at h1) <;>
      simp_all
  | req r => simp only [act] at h1; split at h1 <;> (try split at h1) <;> simp_all
  | main m => simp only [act] at h1; split at h1 <;> (try split at h1) <;> simp_all
  | exit => simp only [act] at h1; split at h1 <;> simp_all
  | kbd => simp [act, h0] at h1
  | kbdCaught => simp only [act] at h1; split at h1 <;> simp_all
  | kbdOutside => simp [act, h0] at h1

/-- **C111, an interrupt stops what runs.** The first interrupt asked for while a block runs reaches it. -/
theorem c111_interrupts (i : Interpreter) (s : St) (f : Frag) (hm : s.main = .got (some f))
    (hs : s.srv = .idle) (more : Bool) :
    let s' := [Act.main more, .req .interrupt, .srv, .srv, .srv, .kbd].foldl (act i) s
    s'.main = .ran false ∧ s'.srv = .idle ∧ s'.buffer = none ∧
    s'.log = s.log ++ [.runs f, .interrupted] := by
  simp [act, hm, hs]

/-! ### Cases -/

/-- A compiler for the cases: a text which ends with ':' needs more, as does one with ':' whose last line is
not empty; "(((" makes it raise. -/
def compile0 (t : Text) : Compiled :=
  if t = c!"(((" then .raises
  else if t.getLast? = some ':' then .incomplete
  else if ':' ∈ t ∧ t.getLast? ≠ some '\n' then .incomplete
  else .code

def i0 : Interpreter := .standard compile0

/-- A request, handled to its end without interruption. -/
def whole (r : Req) : List Act := .req r :: List.replicate 6 .srv

def block0 : List Act :=
  whole (.line c!"if x:") ++ whole (.line c!"  y") ++ [.main false] ++ whole (.line c!"") ++
    whole (.lines c!"a\nb") ++ [.main false, .main false, .main false]

/-- The hypotheses of `c111_blocks` are met by a compiler which raises nothing else, and a case. -/
def i1 : Interpreter := .standard fun t => if t = c!"(((" then .error else compile0 t

theorem i1_never (t : Text) : needMoreForCode i1 t ≠ none := by
  simp only [needMoreForCode, i1]
  split
  · simp
  · split
    · simp
    · rename_i h
      split at h
      · simp at h
      · rename_i hne
        simp only [compile0, hne, if_false] at h
        split at h
        · simp at h
        · split at h <;> simp at h
    · simp
    · simp

theorem block0_timely : Timely i1 block0 := by
  refine ⟨by decide, fun pre post e => ?_⟩
  have : Act.kbd ∈ block0 := by rw [e]; simp
  exact absurd this (by decide)

example : history i1 block0 =
      [.typed ⟨c!"if x:", true, true⟩, .typed ⟨c!"  y", true, true⟩, .typed ⟨c!"", true, false⟩,
       .typed ⟨c!"a\nb", false, false⟩] ∧
    (run i1 block0).srv = .idle ∧
    (run i1 block0).log.filter (fun | .runs _ => true | _ => false) = [.runs ⟨c!"if x:\n  y\n", true⟩] ∧
    (run i1 block0).queue = [some ⟨c!"a\nb", false⟩] := by decide +kernel

/-- **An answer which is not true.** When the compiler raises something else (a `MemoryError` for instance) the
client is told that nothing more is needed, but the text is not run; it is kept, and what is typed next is
added to it. -/
theorem c111_raises_witness :
    let s := run i0 (whole (.line c!"((("))
    s.log = [.answer false] ∧ s.queue = [] ∧ s.buffer = some ⟨c!"(((", true⟩ ∧
    (run i0 (whole (.line c!"(((") ++ whole (.line c!"x"))).queue = [some ⟨c!"(((\nx", true⟩] := by
  decide +kernel

/-- An interrupt which is asked for while something runs. -/
def asked : List Act :=
  whole (.line c!"work") ++ [.main false, .main false] ++ [.req .interrupt, .srv, .srv, .srv]

/-- **An interrupt which comes late** (when what ran has ended) drops what was typed meanwhile: the first line
of a block is lost and the second one is run alone. -/
theorem c111_late_interrupt_witness :
    let s := run i1 (asked ++ [.main false, .main false] ++ whole (.line c!"if x:") ++ [.kbd] ++
      whole (.line c!"y"))
    s.queue = [some ⟨c!"y", true⟩] ∧
    (whole (.line c!"y")).foldl (act i1) (run i1 (asked ++ [.main false, .main false] ++
      whole (.line c!"if x:"))) =
      { run i1 (asked ++ [.main false, .main false] ++ whole (.line c!"if x:")) with
        buffer := some ⟨c!"if x:\ny", true⟩,
        log := (run i1 (asked ++ [.main false, .main false] ++ whole (.line c!"if x:"))).log ++
          [.answer true] } := by
  decide +kernel

/-- The same between two accesses of the server: the client is told that the text is complete and it is never
run (`None` is put in the queue). -/
theorem c111_lost_witness :
    let s := run i1 (asked ++ [.main false, .main false] ++ [.req (.line c!"z"), .srv, .srv, .srv, .kbd] ++
      [.srv, .srv, .srv])
    s.queue = [none] ∧ s.log.getLast? = some (.answer false) := by
  decide +kernel

/-- **A second interrupt is lost.** An interrupt marks the console as not interruptable although the code still
runs: if the code catches it and goes on, no later interrupt is sent to it. -/
theorem c111_second_interrupt_witness :
    let s := run i1 (asked ++ [.kbdCaught] ++ [.req .interrupt, .srv, .srv, .srv])
    s.main = .running (some ⟨c!"work", true⟩) ∧ s.kbd = false ∧
    s.log.filter (· == .interrupted) = [.interrupted, .interrupted] := by
  decide +kernel

/-- An interrupt which comes late and outside of the `try` ends the console's loop: nothing is run after. -/
theorem c111_ended_witness :
    let s := run i1 (asked ++ [.main false, .main false, .kbdOutside] ++ whole (.line c!"z") ++
      List.replicate 4 (.main false))
    s.queue = [some ⟨c!"z", true⟩] ∧ s.main = .ended := by
  decide +kernel

end Interp
