import Verif.LineReq.Lemmas
import Verif.Resolver.ContainerProps
import Verif.Resolver.Props
import Verif.VarPath.Spec
/-!
C132: the path of what was opened leads to what was shown.
-/

namespace VarPath

open Spec

/-! ### The dictionary that is shown -/

theorem foldl_set_get {V : Type} (l : List (Str × V)) (d : List (Str × V)) (n : Str) (c : V)
    (h : Py.Dict.get (l.foldl (fun d e => Py.Dict.set d e.1 e.2) d) n = some c) : (n, c) ∈ l ∨ Py.Dict.get d n = some c := by
  induction l generalizing d with
  | nil => exact .inr h
  | cons e l ih =>
    rcases ih _ h with h | h
    · exact .inl (List.mem_cons_of_mem _ h)
    · rw [Py.Dict.get_set] at h
      split at h
      · rename_i he
        cases h
        exact .inl (by rw [he]; exact List.mem_cons_self)
      · exact .inr h

theorem mem_assigns {w : World} {fuel : Nat} {v : Val} {n : Str} {c : Cell} (h : Py.Dict.get (shown w fuel v) n = some c) :
    (n, c) ∈ assigns w fuel v := by
  rcases foldl_set_get _ _ _ _ h with h | h
  · exact h
  · cases h

/-! ### Rows resolve -/

theorem mem_attrRows {n : Node} {a : Str} {v : Val} (h : (a, Cell.val v) ∈ attrRows n) : a ∈ n.dir ∧ (n.attr a).map .obj = some v := by
  simp only [attrRows, List.mem_map] at h
  obtain ⟨b, hb, he⟩ := h
  cases hg : n.attr b with
  | none => simp [hg] at he
  | some r =>
    simp only [hg, Prod.mk.injEq, Cell.val.injEq] at he
    obtain ⟨rfl, rfl⟩ := he
    exact ⟨hb, by rw [hg]; rfl⟩

theorem mem_dictLoop {c : Resolver.Cfg} {len i : Nat} {l : List Nat} {e : Str × Resolver.Val Nat} (h : e ∈ Resolver.dictLoop c len i l) :
    (∃ j a, l[j]? = some a ∧ e = (Resolver.decLabel len (i + j), .elem a)) ∨ e = (c!"more", .more c.initial) := by
  induction l generalizing i with
  | nil => cases h
  | cons a l ih =>
    rw [Resolver.dictLoop] at h
    rcases List.mem_cons.mp h with h | h
    · exact .inl ⟨0, a, rfl, h⟩
    · split at h
      · exact .inr (List.mem_singleton.mp h)
      · rcases ih h with ⟨j, b, hb, he⟩ | he
        · exact .inl ⟨j + 1, b, by simpa using hb, by rw [he]; congr 2; omega⟩
        · exact .inr he

theorem not_special_of_parse {s : Str} {i : Int} (h : Py.parseInt s = some i) : ¬ special s := by
  rintro (rfl | rfl)
  · exact absurd h (by rw [show Py.parseInt Containers.lenName = none by decide +kernel]; simp)
  · exact absurd h (by rw [show Py.parseInt Containers.tooLargeName = none by decide +kernel]; simp)

theorem row_seq {w : World} {r : Nat} {items : List Nat} {n : Str} {v : Val}
    (hp : ∀ a ∈ (w.heap r).dir, Py.parseInt a = none ∧ a ≠ c!"more" ∧ a ≠ c!"len()" ∧ a ≠ c!"Unable to handle:")
    (h : (n, Cell.val v) ∈ (Resolver.dictLoop w.cfg items.length 0 items).map (fun e => (e.1, seqCell r e.2)) ++ attrRows (w.heap r) ++
      [(Containers.lenName, .info)]) : resolveSeq w r items n = some v := by
  rw [List.mem_append, List.mem_append] at h
  rcases h with (h | h) | h
  · obtain ⟨e, he, hv⟩ := List.mem_map.mp h
    rcases mem_dictLoop he with ⟨j, a, ha, rfl⟩ | rfl
    · simp only [Nat.zero_add, seqCell, Prod.mk.injEq, Cell.val.injEq] at hv
      obtain ⟨rfl, rfl⟩ := hv
      unfold resolveSeq
      rw [if_neg (not_special_of_parse (Resolver.parse_decLabel _ _)), (Resolver.c42_resolves w.cfg items j a ha).1]
    · simp only [seqCell, Prod.mk.injEq, Cell.val.injEq] at hv
      obtain ⟨rfl, rfl⟩ := hv
      unfold resolveSeq
      rw [if_neg (by decide)]
      have : Resolver.resolve w.cfg items c!"more" = some (.more w.cfg.initial) := by
        unfold Resolver.resolve
        rw [show Py.parseInt c!"more" = none by decide +kernel]
        rfl
      rw [this]
  · obtain ⟨hd, hv⟩ := mem_attrRows h
    obtain ⟨h1, h2, h3, h4⟩ := hp n hd
    unfold resolveSeq
    rw [if_neg (by rintro (h | h) <;> contradiction)]
    have : Resolver.resolve w.cfg items n = none := by
      unfold Resolver.resolve
      rw [h1, if_neg h2]
      rfl
    rw [this]
    exact hv
  · simp at h

theorem mem_dictAssigns {max : Int} {i : Nat} {l : List (Containers.Obj × Nat)} {n : Str} {v : Nat}
    (h : (n, Containers.Cell.value v) ∈ Containers.dictAssigns max i l) : ∃ e ∈ l, n = Containers.keyLabel e.1 ∧ v = e.2 := by
  induction l generalizing i with
  | nil => cases h
  | cons e l ih =>
    obtain ⟨k, x⟩ := e
    rw [Containers.dictAssigns] at h
    rcases List.mem_cons.mp h with h | h
    · cases h
      exact ⟨_, List.mem_cons_self, rfl, rfl⟩
    · split at h
      · simp at h
      · obtain ⟨e, he, hh⟩ := ih h
        exact ⟨e, List.mem_cons_of_mem _ he, hh⟩

theorem paren_keyLabel (k : Containers.Obj) : '(' ∈ Containers.keyLabel k := by
  simp [Containers.keyLabel]

theorem row_dict {w : World} {r : Nat} {items : List (Key × Nat)} {n : Str} {v : Val} (ho : (items.map fun e => e.1.obj.id).Nodup)
    (hp : ∀ a ∈ (w.heap r).dir, '(' ∉ a ∧ a ≠ c!"Unable to handle:" ∧ ∀ e ∈ items, e.1.str ≠ some a)
    (h : (n, Cell.val v) ∈ (Containers.dictAssigns w.max 0 (items.map fun e => (e.1.obj, e.2))).map (fun e => (e.1, contCell id e.2)) ++
      attrRows (w.heap r) ++ [(Containers.lenName, .info)]) : resolveDict w r items n = some v := by
  rw [List.mem_append, List.mem_append] at h
  rcases h with (h | h) | h
  · obtain ⟨e, he, hv⟩ := List.mem_map.mp h
    obtain ⟨m, c⟩ := e
    cases c with
    | value x =>
      simp only [contCell, id, Prod.mk.injEq, Cell.val.injEq] at hv
      obtain ⟨rfl, rfl⟩ := hv
      obtain ⟨e, hm, rfl, rfl⟩ := mem_dictAssigns he
      unfold resolveDict
      rw [if_neg (by have := Containers.keyLabel_ne e.1; rintro (h | h); exact this.1 h; exact this.2 h), if_pos (paren_keyLabel _),
        Containers.c53_dict_resolves _ (by simpa [Containers.Objects, Function.comp_def] using ho) e hm]
    | _ => simp [contCell] at hv
  · obtain ⟨hd, hv⟩ := mem_attrRows h
    obtain ⟨h1, h2, h3⟩ := hp n hd
    unfold resolveDict
    rw [if_neg (by
      rintro (h | h)
      · rw [h] at h1; exact h1 (by decide)
      · exact h2 h), if_neg h1]
    have : items.find? (fun e => e.1.str == some n) = none := by
      rw [List.find?_eq_none]
      intro e he hh
      exact h3 e he (by simpa using hh)
    rw [this]
    exact hv
  · simp at h

theorem mem_setLoop {max : Int} {i : Nat} {l : List Containers.Obj} {e : Containers.Row Containers.Obj} (h : e ∈ Containers.setLoop max i l) :
    (∃ o ∈ l, e = ⟨Py.natStr o.id, .value o, none⟩) ∨ e.val = .tooLarge := by
  induction l generalizing i with
  | nil => cases h
  | cons o l ih =>
    rw [Containers.setLoop] at h
    rcases List.mem_cons.mp h with h | h
    · exact .inl ⟨o, List.mem_cons_self, h⟩
    · split at h
      · rw [List.mem_singleton.mp h]; exact .inr rfl
      · rcases ih h with ⟨o, ho, hh⟩ | hh
        · exact .inl ⟨o, List.mem_cons_of_mem _ ho, hh⟩
        · exact .inr hh

theorem row_set {w : World} {r : Nat} {items : List Containers.Obj} {n : Str} {v : Val} (ho : (items.map (·.id)).Nodup)
    (hp : ∀ a ∈ (w.heap r).dir, Py.parseInt a = none ∧ a ≠ c!"len()" ∧ a ≠ c!"Unable to handle:")
    (h : (n, Cell.val v) ∈ (Containers.setLoop w.max 0 items).map (fun e => (e.name, contCell (·.id) e.val)) ++
      attrRows (w.heap r) ++ [(Containers.lenName, .info)]) : resolveSet w r items n = some v := by
  rw [List.mem_append, List.mem_append] at h
  rcases h with (h | h) | h
  · obtain ⟨e, he, hv⟩ := List.mem_map.mp h
    rcases mem_setLoop he with ⟨o, hm, rfl⟩ | ht
    · simp only [contCell, Prod.mk.injEq, Cell.val.injEq] at hv
      obtain ⟨rfl, rfl⟩ := hv
      unfold resolveSet
      have hr := (Containers.c53_set_resolves items ho).2 o hm
      simp only [Containers.setRow] at hr
      rw [if_neg (not_special_of_parse (Containers.parse_natStr _)), Containers.parse_natStr, hr]
    · rw [ht] at hv
      simp [contCell] at hv
  · obtain ⟨hd, hv⟩ := mem_attrRows h
    obtain ⟨h1, h2, h3⟩ := hp n hd
    unfold resolveSet
    rw [if_neg (by rintro (h | h) <;> contradiction), h1]
    exact hv
  · simp at h

theorem mem_bucketLoop {bucket : Int} {fuel : Nat} {rem a b : Int} {rows : List (Resolver.Row Nat)}
    (h : Resolver.bucketLoop bucket fuel rem a b = some rows) (e : Resolver.Row Nat) (he : e ∈ rows) :
    ∃ x y, e = ⟨Resolver.rangeName x y, .range x y, none⟩ := by
  induction fuel generalizing rem a b rows with
  | zero => cases h
  | succ fuel ih =>
    rw [Resolver.bucketLoop] at h
    split at h
    · cases hb : Resolver.bucketLoop (α := Nat) bucket fuel (rem - bucket) b (b + min bucket (rem - bucket)) with
      | none => rw [hb] at h; cases h
      | some rs =>
        rw [hb] at h
        cases h
        rcases List.mem_cons.mp he with rfl | he
        · exact ⟨a, b, rfl⟩
        · exact ih hb he
    · cases h
      cases he

theorem mem_rangeRows {len i : Nat} {l : List Nat} {e : Resolver.Row Nat} (h : e ∈ Resolver.rangeRows false len i l) :
    ∃ j a, l[j]? = some a ∧ e.name = Resolver.decLabel len (i + j) ∧ e.val = .elem a := by
  induction l generalizing i with
  | nil => cases h
  | cons a l ih =>
    rw [Resolver.rangeRows] at h
    rcases List.mem_cons.mp h with rfl | h
    · exact ⟨0, a, rfl, rfl, rfl⟩
    · obtain ⟨j, b, hb, h1, h2⟩ := ih h
      exact ⟨j + 1, b, by simpa using hb, by rw [h1]; congr 1; omega, h2⟩

theorem slice_get {l : List Nat} {a b : Int} (ha : 0 ≤ a) {j : Nat} {x : Nat} (h : (Py.slice l a b)[j]? = some x) :
    l[a.toNat + j]? = some x := by
  unfold Py.slice at h
  rw [List.getElem?_drop, List.getElem?_take] at h
  split at h
  · rename_i hlt
    have : Py.bound l.length a = a.toNat := by
      unfold Py.bound at hlt ⊢
      rw [if_neg (by omega)] at hlt ⊢
      by_cases hl : a.toNat ≤ l.length
      · omega
      · exfalso
        have hb : Py.bound l.length b ≤ l.length ∨ b < 0 := by unfold Py.bound; split <;> omega
        have hx : l[min a.toNat l.length + j]? = none := by
          rw [List.getElem?_eq_none_iff]
          omega
        unfold Py.bound at h
        rw [if_neg (by omega), hx] at h
        cases h
    rw [this] at h
    exact h
  · cases h

/-- C132. Every row resolves to what it shows. -/
theorem c132_row {w : World} {v v' : Val} {n : Str} (hp : Plain w v) (h : Row w v n v') (hn : ∀ d, v ≠ .names d) : resolve w v n = some v' := by
  obtain ⟨fuel, h⟩ := h
  have hm := mem_assigns h
  cases v with
  | names d => exact absurd rfl (hn d)
  | none => cases hm
  | obj r =>
    simp only [assigns] at hm
    simp only [Plain] at hp
    simp only [resolve]
    cases hk : (w.heap r).kind with
    | atom => simp [hk] at hm
    | plain =>
      simp only [hk] at hm ⊢
      exact (mem_attrRows hm).2
    | seq items =>
      simp only [hk] at hm hp ⊢
      exact row_seq hp hm
    | dict items =>
      simp only [hk] at hm hp ⊢
      exact row_dict hp.1 hp.2 hm
    | set items =>
      simp only [hk] at hm hp ⊢
      exact row_set hp.1 hp.2 hm
  | more r h' =>
    simp only [assigns] at hm
    obtain ⟨e, he, hv⟩ := List.mem_map.mp hm
    unfold Resolver.moreContents at he
    cases hb : Resolver.bucketLoop (α := Nat) w.cfg.bucket fuel ((itemsOf w r).length - h') h' (h' + min w.cfg.bucket ((itemsOf w r).length - h')) with
    | none => rw [hb] at he; cases he
    | some rows =>
      rw [hb] at he
      obtain ⟨x, y, rfl⟩ := mem_bucketLoop hb e he
      simp only [seqCell, Prod.mk.injEq, Cell.val.injEq] at hv
      obtain ⟨rfl, rfl⟩ := hv
      simp only [resolve, Resolver.c42_resolves_bucket]
  | range r a b =>
    simp only [assigns, Resolver.rangeContents, if_true, Option.getD_some] at hm
    obtain ⟨e, he, hv⟩ := List.mem_map.mp hm
    obtain ⟨j, x, hx, h1, h2⟩ := mem_rangeRows he
    rw [h1, h2] at hv
    simp only [seqCell, Prod.mk.injEq, Cell.val.injEq] at hv
    obtain ⟨rfl, rfl⟩ := hv
    simp only [resolve]
    have := (Resolver.c42_resolves w.cfg (itemsOf w r) (a.toNat + j) x (slice_get hp hx)).2
    rw [this]

theorem assigns_not_names (w : World) (fuel : Nat) (v : Val) (n : Str) (d : List (Str × Nat)) : (n, Cell.val (.names d)) ∉ assigns w fuel v := by
  intro h
  have attr : ∀ nd : Node, (n, Cell.val (.names d)) ∉ attrRows nd := by
    intro nd h
    have := (mem_attrRows h).2
    cases hh : nd.attr n with
    | none => rw [hh] at this; cases this
    | some r => rw [hh] at this; cases this
  have seq : ∀ r (x : Resolver.Val Nat), seqCell r x ≠ .val (.names d) := by intro r x; cases x <;> simp [seqCell]
  have cont : ∀ {V : Type} (f : V → Nat) (x : Containers.Cell V), contCell f x ≠ .val (.names d) := by intro V f x; cases x <;> simp [contCell]
  cases v with
  | obj r =>
    simp only [assigns] at h
    cases hk : (w.heap r).kind <;> simp only [hk] at h
    · cases h
    · exact attr _ h
    all_goals
      rw [List.mem_append, List.mem_append] at h
      rcases h with (h | h) | h
      · obtain ⟨e, _, he⟩ := List.mem_map.mp h
        have := congrArg Prod.snd he
        first | exact seq _ _ this | exact cont _ _ this
      · exact attr _ h
      · simp at h
  | more r x =>
    obtain ⟨e, _, he⟩ := List.mem_map.mp h
    exact seq _ _ (congrArg Prod.snd he)
  | range r a b =>
    obtain ⟨e, _, he⟩ := List.mem_map.mp h
    exact seq _ _ (congrArg Prod.snd he)
  | names d' =>
    obtain ⟨e, _, he⟩ := List.mem_map.mp h
    cases congrArg Prod.snd he
  | none => cases h

theorem walk_opened {w : World} {v v' : Val} {ns : List Str} (h : Opened w v ns v') (hn : ∀ d, v ≠ .names d) : walk w v ns = some v' := by
  induction h with
  | here => rfl
  | row hp hr ht ho ih =>
    rw [walk, c132_row hp hr hn]
    refine ih ?_
    rintro d rfl
    obtain ⟨fuel, hg⟩ := hr
    exact assigns_not_names _ _ _ _ _ (mem_assigns hg)

theorem opened_tabs {w : World} {v v' : Val} {ns : List Str} (h : Opened w v ns v') : ∀ n ∈ ns, '\t' ∉ n := by
  induction h with
  | here => simp
  | row _ _ ht _ ih =>
    intro n hn
    rcases List.mem_cons.mp hn with rfl | hn
    · exact ht
    · exact ih n hn

/-! ### Names of a frame -/

theorem foldl_get (l : List (Str × Nat)) (hl : Py.Dict.Ok l) (d : List (Str × Nat)) (n : Str) :
    Py.Dict.get (l.foldl (fun d e => Py.Dict.set d e.1 e.2) d) n = (Py.Dict.get l n).or (Py.Dict.get d n) := by
  induction l generalizing d with
  | nil => simp [Py.Dict.get_nil]
  | cons e l ih =>
    simp only [Py.Dict.Ok, List.map_cons, List.nodup_cons] at hl
    rw [List.foldl_cons, ih hl.2, Py.Dict.get_set, Py.Dict.get_cons]
    by_cases h : n = e.1
    · subst h
      have : Py.Dict.get l e.1 = none := by rw [Py.Dict.get_none_iff]; exact hl.1
      simp [this]
    · have h' : ¬ e.1 = n := fun x => h x.symm
      simp [h, h']

theorem merged_means {f : Frame} (hl : Py.Dict.Ok f.locals) (hg : Py.Dict.Ok f.globals) {n : Str} {r : Nat} (h : Means f n r) :
    Py.Dict.get (merged f) n = some r := by
  unfold merged
  rw [foldl_get _ hl, foldl_get _ hg]
  rcases h with h | ⟨h, h'⟩
  · rw [h]; rfl
  · rw [h, h']; rfl

theorem resolve_name (w : World) (d : List (Str × Nat)) {n : Str} {r : Nat} (hn : Name n) (h : Py.Dict.get d n = some r) :
    resolve w (.names d) n = some (.obj r) := by
  simp only [resolve]
  rw [if_neg (by
    rintro (h | h)
    · exact hn.2.1 (by rw [h]; decide)
    · exact hn.2.2 h), if_neg hn.2.1, h]

/-! ### Requests -/

theorem request_eq (w : World) (th fr sc : Str) (ps : List Str) (h1 : '\t' ∉ th) (h2 : '\t' ∉ fr) (h3 : '\t' ∉ sc) (hps : ∀ n ∈ ps, '\t' ∉ n)
    (hne : ps ≠ []) : requestVariable w (Py.join1 '\t' (th :: fr :: sc :: ps)) = getVariable w th fr sc (some (Py.join1 '\t' ps)) ∧
      parts (some (Py.join1 '\t' ps)) = ps := by
  constructor
  · unfold requestVariable
    rw [Py.join1_cons _ _ _ (by simp), Py.join1_cons _ _ _ (by simp), Py.join1_cons _ _ _ hne, LineReq.splitN_cons _ _ _ h1,
      LineReq.splitN_cons _ _ _ h2, LineReq.splitN_zero]
    simp only
    have : scopeAttrs (sc ++ '\t' :: Py.join1 '\t' ps) = (sc, some (Py.join1 '\t' ps)) := by
      unfold scopeAttrs
      rw [LineReq.splitN_cons _ _ _ h3, LineReq.splitN_zero]
    rw [this]
  · exact Py.split1_join1 _ _ hne hps

/-- C132. Opening a variable of a frame, and rows below it: the request with their names is answered with what was shown. -/
theorem c132_frame (w : World) (th fr : Str) (f : Frame) (hf : w.frame th fr = some f) (h1 : '\t' ∉ th) (h2 : '\t' ∉ fr)
    (hl : Py.Dict.Ok f.locals) (hg : Py.Dict.Ok f.globals) (n : Str) (r : Nat) (hn : Name n) (hm : Means f n r)
    (ns : List Str) (v : Val) (ho : Opened w (.obj r) ns v) :
    requestVariable w (Py.join1 '\t' (th :: fr :: c!"FRAME" :: n :: ns)) = some v := by
  have hps : ∀ x ∈ n :: ns, '\t' ∉ x := by
    intro x hx
    rcases List.mem_cons.mp hx with rfl | hx
    · exact hn.1
    · exact opened_tabs ho x hx
  obtain ⟨e1, e2⟩ := request_eq w th fr c!"FRAME" (n :: ns) h1 h2 (by decide) hps (by simp)
  rw [e1]
  unfold getVariable
  rw [if_neg (by decide), hf]
  simp only
  rw [if_neg (by decide), if_neg (by decide), e2, walk, resolve_name w _ hn (merged_means hl hg hm)]
  exact walk_opened ho (by simp)

/-- C132. The same for a global variable, with the placeholder that stands for the globals. -/
theorem c132_global (w : World) (th fr : Str) (f : Frame) (hf : w.frame th fr = some f) (h1 : '\t' ∉ th) (h2 : '\t' ∉ fr)
    (n dummy : Str) (r : Nat) (hd : '\t' ∉ dummy) (hn : Name n) (hm : Py.Dict.get f.globals n = some r)
    (ns : List Str) (v : Val) (ho : Opened w (.obj r) ns v) :
    requestVariable w (Py.join1 '\t' (th :: fr :: c!"GLOBAL" :: dummy :: n :: ns)) = some v := by
  have hps : ∀ x ∈ dummy :: n :: ns, '\t' ∉ x := by
    intro x hx
    rcases List.mem_cons.mp hx with rfl | hx
    · exact hd
    · rcases List.mem_cons.mp hx with rfl | hx
      · exact hn.1
      · exact opened_tabs ho x hx
  obtain ⟨e1, e2⟩ := request_eq w th fr c!"GLOBAL" (dummy :: n :: ns) h1 h2 (by decide) hps (by simp)
  rw [e1]
  unfold getVariable
  rw [if_neg (by decide), hf]
  simp only
  rw [if_neg (by decide), if_pos (by trivial), e2]
  simp only
  rw [walk, resolve_name w _ hn hm]
  exact walk_opened ho (by simp)

/-- C132. The same for an expression: it is evaluated, and what is below its value found. -/
theorem c132_expression (w : World) (th fr : Str) (f : Frame) (hf : w.frame th fr = some f) (h1 : '\t' ∉ th) (h2 : '\t' ∉ fr)
    (e : Str) (r : Nat) (he : '\t' ∉ e) (hm : f.evaluate e = some r) (ns : List Str) (v : Val) (ho : Opened w (.obj r) ns v) :
    requestVariable w (Py.join1 '\t' (th :: fr :: c!"EXPRESSION" :: e :: ns)) = some v := by
  have hps : ∀ x ∈ e :: ns, '\t' ∉ x := by
    intro x hx
    rcases List.mem_cons.mp hx with rfl | hx
    · exact he
    · exact opened_tabs ho x hx
  obtain ⟨e1, e2⟩ := request_eq w th fr c!"EXPRESSION" (e :: ns) h1 h2 (by decide) hps (by simp)
  rw [e1]
  unfold getVariable
  rw [if_neg (by decide), hf]
  simp only
  rw [if_pos (by trivial), e2]
  simp only
  rw [hm]
  exact walk_opened ho (by simp)

/-- C132. The same for an object given by its identity. -/
theorem c132_by_id (w : World) (r : Nat) (hr : r ∈ w.alive) (hc : '\t' ∉ w.current) (n : Str) (ns : List Str) (v : Val)
    (ho : Opened w (.obj r) (n :: ns) v) :
    requestVariable w (Py.join1 '\t' (w.current :: Py.natStr r :: c!"BY_ID" :: n :: ns)) = some v := by
  have hdig : '\t' ∉ Py.natStr r := fun h => absurd (Py.natStr_digits r _ h) (by decide)
  obtain ⟨e1, e2⟩ := request_eq w w.current (Py.natStr r) c!"BY_ID" (n :: ns) hc hdig (by decide) (opened_tabs ho) (by simp)
  rw [e1]
  unfold getVariable
  rw [if_pos rfl, if_neg (by simp), Containers.parse_natStr]
  simp only
  have hfind : w.alive.find? (fun (x : Nat) => (x : Int) == (r : Int)) = some r := by
    cases hx : w.alive.find? (fun (x : Nat) => (x : Int) == (r : Int)) with
    | none =>
      rw [List.find?_eq_none] at hx
      exact absurd (by simp) (hx r hr)
    | some x =>
      have := List.find?_some hx
      simp only [beq_iff_eq] at this
      congr 1
      omega
  rw [hfind, e2]
  exact walk_opened ho (by simp)

/-- C132. A table view of a variable of a frame shows this variable. -/
theorem c132_array (w : World) (th fr : Str) (f : Frame) (hf : w.frame th fr = some f) (a b c d e sc n : Str)
    (ht : ∀ x ∈ [a, b, c, d, e, th, fr, sc, n], '\t' ∉ x) :
    requestArray w (Py.join1 '\t' [a, b, c, d, e, th, fr, sc, n]) = f.evaluate n := by
  simp only [List.mem_cons, List.not_mem_nil, or_false, forall_eq_or_imp, forall_eq] at ht
  obtain ⟨h1, h2, h3, h4, h5, h6, h7, h8, h9⟩ := ht
  unfold requestArray
  simp only [Py.join1]
  rw [LineReq.splitN_cons _ _ _ h1, LineReq.splitN_cons _ _ _ h2, LineReq.splitN_cons _ _ _ h3, LineReq.splitN_cons _ _ _ h4,
    LineReq.splitN_cons _ _ _ h5, LineReq.splitN_cons _ _ _ h6, LineReq.splitN_cons _ _ _ h7, LineReq.splitN_zero]
  simp only [scopeAttrs]
  rw [LineReq.splitN_cons _ _ _ h8, LineReq.splitN_zero]
  simp only [getArray, hf, Option.bind_some]
  rw [Py.split1_of_not_mem _ _ h9]
  rfl

/-! ### Cases, and where the property fails -/

def key (id : Nat) (s : Str) (t : Str) : Key := ⟨⟨id, t, t, true, id⟩, some s⟩

/-- `x = [{"a": 7}]` in the frame, a dictionary subclass with an attribute `a` (8), a list subclass with an attribute `more` -/
def sample : World where
  heap := fun
    | 1 => { kind := .seq [2] }
    | 2 => { kind := .dict [(key 50 c!"a" c!"'a'", 7)] }
    | 3 => { kind := .dict [(key 50 c!"a" c!"'a'", 7)], dir := [c!"a"], attr := fun n => if n = c!"a" then some 8 else none }
    | 4 => { kind := .seq [], dir := [c!"more"], attr := fun n => if n = c!"more" then some 9 else none }
    | _ => {}
  frame := fun _ _ => some { locals := [(c!"x", 1), (c!"a", 9)], evaluate := fun n => if n = c!"x" then some 1 else if n = c!"a" then some 9 else none }

theorem sample_opened : Opened sample (.obj 1) [c!"0", c!"'a' (50)"] (.obj 7) :=
  .row (v' := .obj 2) (fun a h => (by cases h)) ⟨0, by decide +kernel⟩ (by decide)
    (.row (v' := .obj 7) (And.intro (by decide) (fun a h => (by cases h))) ⟨0, by decide +kernel⟩ (by decide) (.here _))

example : requestVariable sample c!"t\tf\tFRAME\tx\t0\t'a' (50)" = some (.obj 7) :=
  c132_frame sample c!"t" c!"f" _ rfl (by decide) (by decide) (by unfold Py.Dict.Ok; decide) (by unfold Py.Dict.Ok; decide) c!"x" 1 ⟨by decide, by decide, by decide⟩ (.inl rfl) _ _ sample_opened

/-- An attribute of a dictionary that is named like one of its keys: the row shows the attribute, the request answers the item. -/
theorem c132_attribute_witness : Row sample (.obj 3) c!"a" (.obj 8) ∧ resolve sample (.obj 3) c!"a" = some (.obj 7) :=
  ⟨⟨0, by decide +kernel⟩, by decide +kernel⟩

/-- An attribute `more` of a list: the request answers the rest of the list. -/
theorem c132_more_witness : Row sample (.obj 4) c!"more" (.obj 9) ∧ resolve sample (.obj 4) c!"more" = some (.more 4 100) :=
  ⟨⟨0, by decide +kernel⟩, by decide +kernel⟩

/-- A table view of what is below a variable: the last name alone is evaluated in the frame, here `a` instead of `x[..].a`. -/
theorem c132_array_witness : requestArray sample c!"0\t0\t5\t5\t%s\tt\tf\tFRAME\tx\ta" = some 9 ∧
    getVariable sample c!"t" c!"f" c!"FRAME" (some c!"x\ta") = none := by decide +kernel

/-- The globals themselves cannot be asked for without a placeholder. -/
theorem c132_globals_witness : requestVariable sample c!"t\tf\tGLOBAL" = none ∧ requestVariable sample c!"t\tf\tGLOBAL\tg" = some (.names []) := by
  decide +kernel

end VarPath
