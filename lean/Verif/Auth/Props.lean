import Verif.Auth.Spec
/-! Properties C09 (gate) and C10 (ten attempts). -/

namespace Auth
open Spec

theorem after_append (a : Auth) (xs ys : List Req) : after a (xs ++ ys) = after (after a xs) ys := by
  simp [after, List.foldl_append]

theorem step_token (a : Auth) (r : Req) : (step a r).1.token = a.token := by
  have hl : ∀ t, (login a t).token = a.token := by
    intro t; unfold login; split
    · rfl
    · split <;> rfl
  cases r <;> simp only [step] <;> split <;> simp [hl, logout]

theorem after_token (a : Auth) (rs : List Req) : (after a rs).token = a.token := by
  induction rs generalizing a with
  | nil => rfl
  | cons r rs ih => exact (ih _).trans (step_token a r)

/-- How one message changes the state, by what it presents. -/
theorem step_presents (a : Auth) (r : Req) (t : Option Token) (h : presents r = some t) :
    (step a r).1 = login a t := by
  cases r with
  | dapAuthorize u => simp only [presents, Option.some.injEq] at h; subst h; simp only [step]; split <;> rfl
  | lineAuthenticate u => simp only [presents, Option.some.injEq] at h; subst h; simp only [step]; split <;> rfl
  | _ => simp [presents] at h

theorem step_other (a : Auth) (r : Req) (h : presents r = none) (hd : ¬ Disconnect r) :
    (step a r).1 = a := by
  cases r with
  | dapAuthorize u => simp [presents] at h
  | lineAuthenticate u => simp [presents] at h
  | dapDisconnect u => exact absurd trivial hd
  | _ => simp only [step]; try (split <;> rfl)

structure Inv (tok : Token) (a : Auth) (hist : List Req) : Prop where
  token : a.token = some tok
  wrong : 0 < a.wrong → a.authenticated = some false
  auth : a.authenticated = some true → Authorised tok hist

theorem authorised_snoc {tok : Token} {hist : List Req} {r : Req} (h : Authorised tok hist)
    (h1 : ¬ Wrong tok r) (h2 : ¬ Disconnect r) : Authorised tok (hist ++ [r]) := by
  obtain ⟨b, x, l, he, hr, hl⟩ := h
  refine ⟨b, x, l ++ [r], by simp [he], hr, ?_⟩
  intro y hy
  simp only [List.mem_append, List.mem_singleton] at hy
  rcases hy with hy | rfl
  · exact hl y hy
  · exact ⟨h1, h2⟩

theorem inv_step {tok : Token} {a : Auth} {hist : List Req} (h : Inv tok a hist) (r : Req) :
    Inv tok (step a r).1 (hist ++ [r]) := by
  obtain ⟨h1, h2, h3⟩ := h
  cases hp : presents r with
  | some t =>
    rw [step_presents a r t hp]
    have hnd : ¬ Disconnect r := by cases r <;> simp [Disconnect, presents] at *
    unfold login
    split
    · rename_i h10
      refine ⟨h1, h2, ?_⟩
      intro hs
      have := h2 (by omega)
      rw [this] at hs; cases hs
    · split
      · rename_i ht
        refine ⟨h1, by simp, fun _ => ⟨hist, r, [], rfl, ?_, by simp⟩⟩
        rw [Right, hp, ht, h1]
      · exact ⟨h1, fun _ => rfl, by simp⟩
  | none =>
    by_cases hd : Disconnect r
    · cases r with
      | dapDisconnect u =>
        simp only [step]
        split
        · exact ⟨h1, by simp [logout], by simp [logout]⟩
        · rename_i hna
          refine ⟨h1, h2, ?_⟩
          intro hs
          have hs' : a.authenticated = some true := hs
          simp [isAuthenticated, hs'] at hna
      | _ => exact absurd hd (by simp [Disconnect])
    · rw [step_other a r hp hd]
      refine ⟨h1, h2, fun hs => authorised_snoc (h3 hs) ?_ hd⟩
      rintro ⟨t, ht, _⟩; rw [hp] at ht; cases ht

theorem inv_after (tok : Token) (hist : List Req) : Inv tok (after (session (some tok)) hist) hist := by
  have key : ∀ (rs pre : List Req) (a : Auth), Inv tok a pre → Inv tok (after a rs) (pre ++ rs) := by
    intro rs
    induction rs with
    | nil => intro pre a h; simpa [after] using h
    | cons r rs ih =>
      intro pre a h
      have := ih (pre ++ [r]) _ (inv_step h r)
      simpa [after] using this
  have := key hist [] (session (some tok)) ⟨rfl, by simp [session], by simp [session]⟩
  simpa using this

/-- **C09, gate.** With an access token configured, after any history of messages, a request is
executed only if the history contains the right token, not followed by a wrong one nor by a request to
disconnect. -/
theorem c09_executed_only_if_authorised (tok : Token) (hist : List Req) (r x : Req)
    (h : Out.executed x ∈ (step (after (session (some tok)) hist) r).2) :
    x = r ∧ Authorised tok hist := by
  have hinv := inv_after tok hist
  have hauth : isAuthenticated (after (session (some tok)) hist) = true → Authorised tok hist := by
    intro ha
    unfold isAuthenticated at ha
    split at ha
    · rw [hinv.token] at ha; simp at ha
    · rename_i b hb; rw [ha] at hb; exact hinv.auth hb
  cases r with
  | dapAuthorize t => simp only [step] at h; split at h <;> simp at h
  | dapUnknown u => simp [step] at h
  | lineAuthenticate t => simp only [step] at h; split at h <;> simp at h
  | _ =>
    simp only [step] at h
    split at h
    · rename_i ha
      simp only [List.mem_singleton, Out.executed.injEq] at h
      exact ⟨h, hauth ha⟩
    · simp at h

/-- **C09, the client's token is not disclosed** to a client that did not present the right one: the
authorised answer is sent only as the direct answer to the right token. -/
theorem c09_token_not_disclosed (tok : Token) (hist : List Req) (r : Req)
    (h : Out.authorized ∈ (step (after (session (some tok)) hist) r).2) : Right tok r := by
  have hinv := inv_after tok hist
  have key : ∀ t, presents r = some t →
      isAuthenticated (login (after (session (some tok)) hist) t) = true → Right tok r := by
    intro t hp hl
    unfold login at hl
    split at hl
    · rename_i h10
      have := hinv.wrong (by omega)
      simp [isAuthenticated, this] at hl
    · split at hl
      · rename_i ht; rw [Right, hp, ht, hinv.token]
      · simp [isAuthenticated] at hl
  cases r with
  | dapAuthorize t =>
    simp only [step] at h
    split at h
    · rename_i hl; exact key t rfl hl
    · simp at h
  | lineAuthenticate t =>
    simp only [step] at h
    split at h
    · rename_i hl; exact key _ rfl hl
    · simp at h
  | dapUnknown u => simp [step] at h
  | _ => simp only [step] at h; split at h <;> simp at h

/-- **C09, refusals.** Without authorisation every request that has a handler is answered with exactly
one error and changes nothing. -/
theorem c09_refused (tok : Token) (hist : List Req) (r : Req) (hna : ¬ Authorised tok hist)
    (hp : presents r = none) (hk : ∀ u, r ≠ .dapUnknown u) :
    step (after (session (some tok)) hist) r = (after (session (some tok)) hist, [.refused]) := by
  have hinv := inv_after tok hist
  have ha : isAuthenticated (after (session (some tok)) hist) = false := by
    unfold isAuthenticated
    split
    · rw [hinv.token]; rfl
    · rename_i b hb
      cases b with
      | false => rfl
      | true => exact absurd (hinv.auth hb) hna
  cases r with
  | dapAuthorize t => simp [presents] at hp
  | lineAuthenticate t => simp [presents] at hp
  | dapUnknown u => exact absurd rfl (hk u)
  | _ => simp [step, ha]

/-- Non-vacuity of the C09 theorems. -/
example (c : Token) : Authorised c [.dap 1, .lineAuthenticate c, .dap 2] ∧
    (step (after (session (some c)) [.dap 1, .lineAuthenticate c, .dap 2]) (.dap 3)).2 =
      [.executed (.dap 3)] :=
  ⟨⟨[.dap 1], _, [.dap 2], rfl, rfl, by
      intro x hx; simp only [List.mem_singleton] at hx; subst hx
      exact ⟨fun ⟨t, ht, _⟩ => by simp [presents] at ht, fun h => h⟩⟩,
    by simp [after, session, step, login, isAuthenticated]⟩
example : step (after (session (some ['a'])) [.dapAuthorize (some ['b'])]) (.dap 3) =
    (after (session (some ['a'])) [.dapAuthorize (some ['b'])], [.refused]) := by decide

/-! ### C10 -/

theorem wrong_count_stretch (tok : Token) (mid : List Req) (a : Auth) (htok : a.token = some tok)
    (hinv : 0 < a.wrong → a.authenticated = some false) (hna : isAuthenticated a = false)
    (hd : ∀ x ∈ mid, ¬ Disconnect x) (hr : ∀ x ∈ mid, ¬ Right tok x) :
    (after a mid).wrong = min 10 (a.wrong + wrongs tok mid) ∨
      (10 ≤ a.wrong ∧ (after a mid) = a) := by
  induction mid generalizing a with
  | nil => by_cases h : 10 ≤ a.wrong
           · right; exact ⟨h, rfl⟩
           · left; simp [after, wrongs]; omega
  | cons r mid ih =>
    have hd' := fun x hx => hd x (List.mem_cons_of_mem r hx)
    have hr' := fun x hx => hr x (List.mem_cons_of_mem r hx)
    cases hp : presents r with
    | none =>
      have e := step_other a r hp (hd r (by simp))
      have hw : ¬ Wrong tok r := by rintro ⟨t, ht, _⟩; rw [hp] at ht; cases ht
      have := ih a htok hinv hna hd' hr'
      simp only [after, List.foldl_cons, e, wrongs, List.countP_cons, hw] at this ⊢
      simpa using this
    | some t =>
      have e := step_presents a r t hp
      have hne : t ≠ some tok := by
        rintro rfl; exact hr r (by simp) hp
      have hw : Wrong tok r := ⟨t, hp, hne⟩
      by_cases h10 : 10 ≤ a.wrong
      · right
        refine ⟨h10, ?_⟩
        have el : login a t = a := by unfold login; rw [if_pos h10]
        have := ih a htok hinv hna hd' hr'
        simp only [after, List.foldl_cons, e, el]
        rcases this with h | ⟨_, h⟩
        · have hall : ∀ (l : List Req), (∀ x ∈ l, ¬ Disconnect x) → (∀ x ∈ l, ¬ Right tok x) →
              after a l = a := by
            intro l
            induction l with
            | nil => intros; rfl
            | cons y l ihl =>
              intro h1 h2
              have : (step a y).1 = a := by
                cases hy : presents y with
                | none => exact step_other a y hy (h1 y (by simp))
                | some u => rw [step_presents a y u hy]; unfold login; rw [if_pos h10]
              simp only [after, List.foldl_cons, this]
              exact ihl (fun x hx => h1 x (by simp [hx])) (fun x hx => h2 x (by simp [hx]))
          exact hall mid hd' hr'
        · exact h
      · left
        have el : login a t = { a with authenticated := some false, wrong := a.wrong + 1 } := by
          unfold login; rw [if_neg h10, if_neg (by rw [htok]; exact hne)]
        have := ih (login a t) (by rw [el]; exact htok) (by rw [el]; simp)
          (by rw [el]; rfl) hd' hr'
        simp only [after, List.foldl_cons, e, wrongs, List.countP_cons, hw] at this ⊢
        rw [el] at this
        simp only [el] at this ⊢
        rcases this with h | ⟨h, h'⟩
        · rw [h]; simp; omega
        · rw [h'] at *; simp at h ⊢; omega

theorem locked_stays (l : List Req) (a : Auth) (h10 : 10 ≤ a.wrong)
    (hna : isAuthenticated a = false) : after a l = a := by
  induction l with
  | nil => rfl
  | cons y l ih =>
    have : (step a y).1 = a := by
      cases hy : presents y with
      | some u => rw [step_presents a y u hy]; unfold login; rw [if_pos h10]
      | none =>
        by_cases hd : Disconnect y
        · cases y with
          | dapDisconnect u => simp [step, hna]
          | _ => exact absurd hd (by simp [Disconnect])
        · exact step_other a y hy hd
    simp only [after, List.foldl_cons, this]
    exact ih

/-- Not authenticated is kept by a stretch without the right token. -/
theorem stretch_na (tok : Token) (mid : List Req) (a : Auth) (htok : a.token = some tok)
    (hna : isAuthenticated a = false) (hr : ∀ x ∈ mid, ¬ Right tok x) :
    isAuthenticated (after a mid) = false := by
  induction mid generalizing a with
  | nil => exact hna
  | cons r mid ih =>
    simp only [after, List.foldl_cons]
    refine ih _ ((step_token a r).trans htok) ?_ (fun x hx => hr x (by simp [hx]))
    cases hp : presents r with
    | some t =>
      rw [step_presents a r t hp]
      have hne : t ≠ some tok := by rintro rfl; exact hr r (by simp) hp
      unfold login
      split
      · exact hna
      · rw [if_neg (by rw [htok]; exact hne)]; rfl
    | none =>
      by_cases hd : Disconnect r
      · cases r with
        | dapDisconnect u => simp [step, hna]
        | _ => exact absurd hd (by simp [Disconnect])
      · rw [step_other a r hp hd]; exact hna

/-- **C10, lockout.** Suppose that, in a session in which the client is not authenticated (after any
history `before`), ten or more wrong tokens are presented without the right one in between. Then
whatever is sent afterwards — the right token included — the client stays unauthenticated for ever. -/
theorem c10_lockout (tok : Token) (before mid later : List Req)
    (hna : ¬ Authorised tok before)
    (hr : ∀ x ∈ mid, ¬ Right tok x) (hw : 10 ≤ wrongs tok mid) :
    isAuthenticated (after (session (some tok)) (before ++ mid ++ later)) = false ∧
    ∀ r x, Out.executed x ∉ (step (after (session (some tok)) (before ++ mid ++ later)) r).2 := by
  have hinv := inv_after tok before
  have ha : isAuthenticated (after (session (some tok)) before) = false := by
    unfold isAuthenticated
    split
    · rw [hinv.token]; rfl
    · rename_i b hb
      cases b with
      | false => rfl
      | true => exact absurd (hinv.auth hb) hna
  -- requests to disconnect do nothing while unauthenticated, so they can be ignored
  have hskip : ∀ (l : List Req) (a : Auth), a.token = some tok → isAuthenticated a = false →
      (∀ x ∈ l, ¬ Right tok x) →
      after a l = after a (l.filter (fun r => !decide (Disconnect r))) := by
    intro l
    induction l with
    | nil => intros; rfl
    | cons r l ih =>
      intro a htok hna hr
      have hna' : isAuthenticated (step a r).1 = false :=
        stretch_na tok [r] a htok hna (by intro x hx; exact hr x (by simp only [List.mem_singleton] at hx; simp [hx]))
      have ih' := ih (step a r).1 ((step_token a r).trans htok) hna' (fun x hx => hr x (by simp [hx]))
      by_cases hd : Disconnect r
      · have : (step a r).1 = a := by
          cases r with
          | dapDisconnect u => simp [step, hna]
          | _ => exact absurd hd (by simp [Disconnect])
        simp only [after, List.foldl_cons, List.filter_cons, hd, decide_true, Bool.not_true] at ih' ⊢
        rw [this] at ih' ⊢
        exact ih'
      · simp only [after, List.foldl_cons, List.filter_cons, hd, decide_false, Bool.not_false, if_true]
          at ih' ⊢
        exact ih'
  let a := after (session (some tok)) before
  let mid' := mid.filter (fun r => !decide (Disconnect r))
  have hwm : wrongs tok mid' = wrongs tok mid := by
    simp only [wrongs, mid', List.countP_filter]
    apply List.countP_congr
    intro x _
    simp only [Bool.and_eq_true, decide_eq_true_eq, Bool.not_eq_true', decide_eq_false_iff_not]
    constructor
    · exact fun h => h.1
    · rintro ⟨t, ht, hne⟩
      exact ⟨⟨t, ht, hne⟩, by cases x <;> simp [presents, Disconnect] at *⟩
  have hmid := wrong_count_stretch tok mid' a hinv.token hinv.wrong ha
    (by intro x hx; simp only [mid', List.mem_filter] at hx; simpa using hx.2)
    (by intro x hx; simp only [mid', List.mem_filter] at hx; exact hr x hx.1)
  have hmeq : after a mid = after a mid' := hskip mid a hinv.token ha hr
  have h10 : 10 ≤ (after a mid).wrong := by
    rw [hmeq]
    rcases hmid with h | ⟨h, h'⟩
    · rw [h, hwm]; omega
    · rw [h']; exact h
  have hna2 : isAuthenticated (after a mid) = false := stretch_na tok mid a hinv.token ha hr
  have hfinal : after (session (some tok)) (before ++ mid ++ later) = after a mid := by
    rw [after_append, after_append]
    exact locked_stays later _ h10 hna2
  rw [hfinal]
  refine ⟨hna2, ?_⟩
  intro r x
  cases r with
  | dapAuthorize t => simp only [step]; split <;> simp
  | lineAuthenticate t => simp only [step]; split <;> simp
  | dapUnknown u => simp [step]
  | _ => simp [step, hna2]

/-- **C10, before the limit.** As long as fewer than ten wrong tokens were presented since the session
started (and no right one: after a right one the count starts again), the next token is judged on its
merits. -/
theorem c10_before_limit (tok : Token) (hist : List Req) (r : Req) (t : Option Token)
    (hr : ∀ x ∈ hist, ¬ Right tok x) (hd : ∀ x ∈ hist, ¬ Disconnect x)
    (hw : wrongs tok hist < 10) (hp : presents r = some t) :
    isAuthenticated (after (session (some tok)) (hist ++ [r])) = decide (t = some tok) := by
  have h := wrong_count_stretch tok hist (session (some tok)) rfl (by simp [session]) rfl hd hr
  have hlt : (after (session (some tok)) hist).wrong < 10 := by
    rcases h with h | ⟨h, _⟩
    · rw [h]; simp only [session] at *; omega
    · simp [session] at h
  have htok := after_token (session (some tok)) hist
  rw [after_append]
  simp only [after, List.foldl_cons, List.foldl_nil] at *
  rw [step_presents _ r t hp]
  unfold login
  rw [if_neg (by omega), htok]
  simp only [session]
  by_cases ht : t = some tok
  · simp [isAuthenticated, ht]
  · simp [isAuthenticated, ht]

/-- Non-vacuity of C10: nine wrong tokens, then the right one works; ten wrong ones, and it does not. -/
example :
    let w := Req.lineAuthenticate ['x']
    let g := Req.lineAuthenticate ['k']
    wrongs ['k'] (List.replicate 9 w) = 9 ∧ wrongs ['k'] (List.replicate 10 w) = 10 ∧
    isAuthenticated (after (session (some ['k'])) (List.replicate 9 w ++ [g])) = true ∧
    isAuthenticated (after (session (some ['k'])) (List.replicate 10 w ++ [g])) = false := by
  decide +kernel

/-- A session configured *without* a token accepts everything at first, but the first authentication
message with any token locks the client out of it (the token is compared with `None`). -/
theorem c09_no_token_lockout (t : Token) :
    (step (session none) (.dap 1)).2 = [.executed (.dap 1)] ∧
    (step (after (session none) [.lineAuthenticate t]) (.dap 1)).2 = [.refused] := by
  simp [after, session, step, login, isAuthenticated]

end Auth
