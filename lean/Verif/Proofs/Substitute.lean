import Verif.Spec.Substitution
import Verif.Props.Table
/-!
The walk of the substitution stage visits the places of a document in reading order (for C23).
-/
namespace Verif.C23.Doc
open Verif.Walk
open Verif.AttrRefs (CVal)

/-! ### Contexts -/

/-- The context after the places `done`: the attributes are the ones assigned so far. -/
def contextAt (api : AMap Any) (done : List Site) (cs : AMap CVal) (c : Walk.Ctx) : Prop :=
  c.api = api ∧ (∀ k, c.get k = valueAt api done k) ∧
  (∀ opts, settle (c.opts ++ opts) =
    opts.foldl Opt.apply ⟨.documentFragment, true, Subs.normal, experimentalAt done⟩) ∧
  c.counters = cs

/-- The options for the elements at a place. -/
def optsFor (nested : Bool) (opts : List Opt) : Prop := if nested then opts ≠ [] ∧ ∀ o ∈ opts, o = .entry .normalGroup else opts = []

theorem compound_iff {k : Kind} : k.compound = true ↔ Compound k := by unfold Compound; cases k <;> decide

/-! ### What is at a place afterwards -/

/-- What is at a place after the substitution is what the code for that kind of place computes in context `c`; the counters
afterwards are `cs'`. -/
def Site.Holds (W : World) (c : Walk.Ctx) (cs' : AMap CVal) : Site → Prop
  | .front _ => cs' = c.counters
  | .declare _ v v' => replaceValue W c.get v = .ok v' ∧ cs' = c.counters
  | .reset _ => cs' = c.counters
  | .info es' => (∃ r, authorsOf es' none = .ok r) ∧ cs' = c.counters
  | .heading a a' t t' => substAttrs W c [] a = .ok a' ∧ substTitle W c t = .ok (t', cs')
  | .section a a' t t' => ∃ a1 t1, substAttrs W c [] a = .ok a1 ∧ substTitle W c t = .ok (t1, cs') ∧
      setSectionTitle W a1 t1 = .ok (a', t')
  | .attrs nested b a a' => (∃ opts, optsFor nested opts ∧ substAttrs W c opts a = .ok a') ∧
      (∀ b', b = some b' → ∃ subs, subsFor b' a' = .ok subs) ∧ cs' = c.counters
  | .paragraph nested a a' es es' => ∃ opts, optsFor nested opts ∧
      ∃ c', substParagraph W c opts a es = .ok (.paragraph a' es', c') ∧ c'.counters = cs'
  | .verbatim nested k a a' es es' => ∃ opts a1 subs, optsFor nested opts ∧ substAttrs W c opts a = .ok a1 ∧
      subsFor (blockOf k) a1 = .ok subs ∧
      ∃ c', substVerbatim W c opts k a1 subs es = .ok (.block k a' es', c') ∧ c'.counters = cs'
  | .term nested a a' t t' => ∃ opts subs, optsFor nested opts ∧ substAttrs W c opts a = .ok a' ∧ subsFor .other a' = .ok subs ∧
      substSlice W c subs (opts ++ [.entry .normalGroup]) t = .ok (t', cs')
  | .located nested n a a' l l' => ∃ opts, optsFor nested opts ∧
      ∃ c', substLocated W c opts n a l = .ok (.located n a' l', c') ∧ c'.counters = cs'

/-- Every place is substituted in the context that the places before it leave; `cs` are the counters before, `cs'` those after all
of them. -/
def InOrder (W : World) (api : AMap Any) (done : List Site) (cs cs' : AMap CVal) : List Site → Prop
  | [] => cs' = cs
  | s :: ss => ∃ c cs1, contextAt api done cs c ∧ s.Holds W c cs1 ∧ InOrder W api (done ++ [s]) cs1 cs' ss


theorem opts_nested {nested : Bool} {opts : List Opt} (h : optsFor nested opts) : optsFor true (opts ++ [.entry .normalGroup]) := by
  unfold optsFor
  rw [if_pos rfl]
  refine ⟨by simp, fun o ho => ?_⟩
  rcases List.mem_append.1 ho with ho | ho
  · cases nested with
    | true => exact (show opts ≠ [] ∧ _ from h).2 o ho
    | false => rw [show opts = [] from h] at ho; cases ho
  · exact List.mem_singleton.1 ho

theorem opts_top : optsFor false [] := rfl

/-- The last assignment, after the ones before. -/
def lastFrom (k : String) (cur : Option Any) (l : List (String × Option Any)) : Option Any :=
  l.foldl (fun cur p => if p.1 = k then p.2 else cur) cur

theorem lastOf_append (k : String) (l l' : List (String × Option Any)) : lastOf k (l ++ l') = lastFrom k (lastOf k l) l' := by
  unfold lastOf lastFrom; rw [List.foldl_append]

theorem valueAt_snoc (api : AMap Any) (done : List Site) (s : Site) (k : String) :
    valueAt api (done ++ [s]) k = match AMap.get api k with
      | some v => some v
      | none => lastFrom k (lastOf k (done.flatMap Site.assigns)) s.assigns := by
  unfold valueAt
  cases AMap.get api k with
  | some v => rfl
  | none => simp [List.flatMap_append, lastOf_append]

theorem get_setAll_last (k : String) : ∀ (a : Attrs) (m : AMap Any),
    AMap.get (AMap.setAll m a) k = lastFrom k (AMap.get m k) (a.map (fun p : String × Any => (p.1, some p.2)))
  | [], m => rfl
  | p :: a, m => by
    have := get_setAll_last k a (AMap.set m p.1 p.2)
    show AMap.get (AMap.setAll (AMap.set m p.1 p.2) a) k = lastFrom k (if p.1 = k then some p.2 else AMap.get m k) _
    rw [this, AMap.get_set]
    by_cases h : p.1 = k
    · rw [if_pos h, if_pos (by simp [h])]
    · rw [if_neg h, if_neg (by first | exact h | exact fun e => h e.symm)]

/-- What the experimental flag is after one more place. -/
def expStep (cur : Bool) : Site → Bool
  | .declare n _ _ => if n = "experimental" then true else cur
  | .reset n => if n = "experimental" then false else cur
  | _ => cur

theorem experimental_snoc (done : List Site) (s : Site) : experimentalAt (done ++ [s]) = expStep (experimentalAt done) s := by
  unfold experimentalAt
  rw [List.foldl_append]
  cases s <;> rfl

theorem docValue {api : AMap Any} {done : List Site} {cs : AMap CVal} {c : Walk.Ctx} (h : contextAt api done cs c) (k : String)
    (hk : AMap.get api k = none) : AMap.get c.doc k = lastOf k (done.flatMap Site.assigns) := by
  have := h.2.1 k
  unfold Ctx.get valueAt at this
  rw [h.1, hk] at this
  exact this

/-- A step that changes the attributes of the document. -/
theorem context_step {api : AMap Any} {done : List Site} {cs : AMap CVal} {c c' : Walk.Ctx} (h : contextAt api done cs c) (s : Site)
    (ha : c'.api = c.api) (hd : ∀ k, AMap.get c'.doc k = lastFrom k (AMap.get c.doc k) s.assigns)
    (ho : ∀ opts, settle (c'.opts ++ opts) =
      opts.foldl Opt.apply ⟨.documentFragment, true, Subs.normal, expStep (experimentalAt done) s⟩) :
    contextAt api (done ++ [s]) c'.counters c' := by
  refine ⟨ha.trans h.1, fun k => ?_, fun opts => ?_, rfl⟩
  · rw [valueAt_snoc]
    unfold Ctx.get
    rw [ha, h.1]
    cases hk : AMap.get api k with
    | some v => rfl
    | none => dsimp only; rw [hd, docValue h k hk]
  · rw [experimental_snoc]; exact ho opts

/-- A place without effect on attributes. -/
def Site.quiet (s : Site) : Prop := s.assigns = [] ∧ ∀ b, expStep b s = b

theorem context_quiet {api : AMap Any} {done : List Site} {cs cs' : AMap CVal} {c : Walk.Ctx} (h : contextAt api done cs c) (s : Site)
    (hs : s.quiet) : contextAt api (done ++ [s]) cs' { c with counters := cs' } :=
  context_step (c' := { c with counters := cs' }) h s rfl (fun k => by rw [hs.1]; rfl) (fun opts => by rw [hs.2]; exact h.2.2.1 opts)

theorem settle_append (l l' : List Opt) : settle (l ++ l') = l'.foldl Opt.apply (settle l) := by
  unfold settle; rw [List.foldl_append]

theorem settle_ctx {api : AMap Any} {done : List Site} {cs : AMap CVal} {c : Walk.Ctx} (h : contextAt api done cs c) :
    settle c.opts = ⟨.documentFragment, true, Subs.normal, experimentalAt done⟩ := by
  have := h.2.2.1 []
  rwa [List.append_nil] at this

/-! ### Sequences of places -/

theorem inOrder_append (W : World) (api : AMap Any) : ∀ (l l' done : List Site) (cs cs1 cs2 : AMap CVal),
    InOrder W api done cs cs1 l → InOrder W api (done ++ l) cs1 cs2 l' → InOrder W api done cs cs2 (l ++ l')
  | [], l', done, cs, cs1, cs2, h, h' => by
    rw [List.append_nil] at h'
    rw [show cs1 = cs from h] at h'
    exact h'
  | s :: l, l', done, cs, cs1, cs2, h, h' => by
    obtain ⟨c, cs0, hc, hs, hl⟩ := h
    refine ⟨c, cs0, hc, hs, inOrder_append W api l l' (done ++ [s]) cs0 cs1 cs2 hl ?_⟩
    rwa [List.append_assoc, List.singleton_append]

/-- The places `l` are visited, from context `c` to context `c'`. -/
structure Visits (W : World) (api : AMap Any) (done : List Site) (c : Walk.Ctx) (l : List Site) (c' : Walk.Ctx) : Prop where
  order : InOrder W api done c.counters c'.counters l
  after : contextAt api (done ++ l) c'.counters c'

theorem Visits.nil {W : World} {api : AMap Any} {done : List Site} {c : Walk.Ctx} {cs} (h : contextAt api done cs c) :
    Visits W api done c [] c := by
  refine ⟨rfl, ?_⟩
  rw [List.append_nil]
  exact ⟨h.1, h.2.1, h.2.2.1, rfl⟩

theorem Visits.append {W : World} {api : AMap Any} {done l l' : List Site} {c c' c'' : Walk.Ctx} (h : Visits W api done c l c')
    (h' : Visits W api (done ++ l) c' l' c'') : Visits W api done c (l ++ l') c'' :=
  ⟨inOrder_append W api l l' done _ _ _ h.order h'.order, by rw [← List.append_assoc]; exact h'.after⟩

theorem Visits.one {W : World} {api : AMap Any} {done : List Site} {c c' : Walk.Ctx} {s : Site} (h : contextAt api done c.counters c)
    (hs : s.Holds W c c'.counters) (ha : contextAt api (done ++ [s]) c'.counters c') : Visits W api done c [s] c' :=
  ⟨⟨c, _, h, hs, rfl⟩, ha⟩

theorem Visits.quiet {W : World} {api : AMap Any} {done : List Site} {c : Walk.Ctx} {cs' : AMap CVal} {s : Site}
    (h : contextAt api done c.counters c) (hq : s.quiet) (hs : s.Holds W c cs') : Visits W api done c [s] { c with counters := cs' } :=
  Visits.one (c' := { c with counters := cs' }) h hs (context_quiet h s hq)

theorem self_ctx (c : Walk.Ctx) : ({ c with counters := c.counters } : Walk.Ctx) = c := rfl

/-! ### Tables -/

theorem header_length (hdr ftr : Bool) (cols : List Int) (t t' : Table.Table Any) (h : Table.setColumns hdr ftr cols t = some t') :
    (t'.header.getD []).length =
      if (t.header.isSome || hdr) = true then min (Table.size cols).toNat (Table.allCells t).length else 0 := by
  unfold Table.setColumns at h
  cases ho : Table.organize (Table.allCells t) (Table.size cols) with
  | none => rw [ho] at h; cases h
  | some rows =>
    rw [ho] at h
    dsimp only at h
    cases hh : Table.restoreHeader (t.header.isSome || hdr) { t with rows := rows } with
    | none => rw [hh] at h; cases h
    | some t1 =>
      rw [hh] at h
      dsimp only at h
      have e : t'.header = t1.header := by
        unfold Table.restoreFooter at h
        revert h
        cases (t.footer.isSome || ftr) with
        | false => intro h; cases h; rfl
        | true =>
          rw [if_pos rfl]
          cases t1.rows.getLast? with
          | none => intro h; cases h
          | some r => intro h; cases h; rfl
      rw [e]
      revert hh
      unfold Table.restoreHeader
      cases hw : (t.header.isSome || hdr) with
      | false =>
        rw [if_neg (by decide), if_neg (by decide)]
        intro hh; cases hh
        cases hth : t.header with
        | none => rfl
        | some x => rw [hth] at hw; cases hw
      | true =>
        rw [if_pos rfl, if_pos rfl]
        dsimp only
        cases rows with
        | nil => intro hh; cases hh
        | cons r rs =>
          intro hh; cases hh
          show r.length = _
          unfold Table.organize at ho
          by_cases h0 : Table.size cols = 0
          · rw [if_pos h0] at ho; cases ho
          rw [if_neg h0] at ho
          by_cases h1 : Table.size cols < 0
          · rw [if_pos h1] at ho
            cases hc : (Table.allCells t).isEmpty with
            | true => rw [hc, if_pos rfl] at ho; cases ho
            | false => rw [hc, if_neg (by decide)] at ho; cases ho
          · rw [if_neg h1] at ho
            cases hc : Table.allCells t with
            | nil => rw [hc] at ho; cases ho
            | cons x xs =>
              rw [hc] at ho
              have ho' := Option.some.inj ho
              unfold Table.dispatch at ho'
              have : r = List.take (Table.size cols).toNat (x :: xs) := by
                injection ho' with h1 h2
                exact h1.symm
              rw [this, List.length_take]

/-- The cells of a table, in order. -/
theorem organize_cells {a : Attrs} {h : Option (List Any)} {rows : List (List Any)} {f : Option (List Any)} {t}
    (ho : organize a h rows f = .ok t) :
    t.1.getD [] ++ t.2.1.flatten ++ t.2.2.getD [] = h.getD [] ++ rows.flatten ++ f.getD [] := by
  unfold organize at ho
  revert ho
  split
  · rename_i cols hc
    cases hs : Table.setColumns (hasOption a "header") (hasOption a "footer") (multipliers cols) ⟨h, f, rows⟩ with
    | none => intro ho; cases ho
    | some t' =>
      intro ho; cases ho
      obtain ⟨rows', ho', hr, _⟩ := C26.setColumns_rows _ _ _ _ _ hs
      have h1 := C26.allCells_rows t'
      rw [hr, (C26.organize_some _ _ _ ho').1] at h1
      exact h1
  · intro ho; cases ho; rfl

theorem organize_header {a : Attrs} {h h1 : Option (List Any)} {rows rows1 : List (List Any)} {f f1 : Option (List Any)} {t t1}
    (ho : organize a h rows f = .ok t) (ho1 : organize a h1 rows1 f1 = .ok t1) (hs : h.isSome = h1.isSome)
    (hh : (h.getD []).length = (h1.getD []).length)
    (hl : (h.getD [] ++ rows.flatten ++ f.getD []).length = (h1.getD [] ++ rows1.flatten ++ f1.getD []).length) :
    (t.1.getD []).length = (t1.1.getD []).length := by
  unfold organize at ho ho1
  revert ho ho1
  split
  · rename_i cols hc
    cases hs1 : Table.setColumns (hasOption a "header") (hasOption a "footer") (multipliers cols) ⟨h, f, rows⟩ with
    | none => intro ho; cases ho
    | some t' =>
      cases hs2 : Table.setColumns (hasOption a "header") (hasOption a "footer") (multipliers cols) ⟨h1, f1, rows1⟩ with
      | none => intro _ ho; cases ho
      | some t'' =>
        intro ho ho1; cases ho; cases ho1
        show (t'.header.getD []).length = (t''.header.getD []).length
        rw [header_length _ _ _ _ _ hs1, header_length _ _ _ _ _ hs2]
        show (if (h.isSome || _) = true then min _ (h.getD [] ++ rows.flatten ++ f.getD []).length else 0) =
          (if (h1.isSome || _) = true then min _ (h1.getD [] ++ rows1.flatten ++ f1.getD []).length else 0)
        rw [hs, hl]
  · intro ho ho1; cases ho; cases ho1; exact hh

/-! ### The walk -/

theorem settle_exp {api : AMap Any} {done : List Site} {cs : AMap CVal} {c : Walk.Ctx} (h : contextAt api done cs c) (b : Bool)
    (opts : List Opt) : settle (c.opts ++ [.experimental b] ++ opts) =
      opts.foldl Opt.apply ⟨.documentFragment, true, Subs.normal, b⟩ := by
  rw [settle_append, settle_append, settle_ctx h]; rfl

theorem visit_declare {W : World} {api : AMap Any} {done : List Site} {c c' : Walk.Ctx} {n : String} {v e' : Any}
    (h : contextAt api done c.counters c) (hs : substDeclare W c n v = .ok (e', c')) :
    ∃ v', e' = .declare n v' ∧ Visits W api done c [.declare n v v'] c' := by
  unfold substDeclare at hs
  cases hv : replaceValue W c.get v with
  | error b => rw [hv] at hs; cases hs
  | ok v' =>
    rw [hv] at hs
    dsimp only at hs
    injection hs with hs
    injection hs with h1 h2
    subst h1
    have hdoc : ∀ k, AMap.get (c.set n v').doc k = lastFrom k (AMap.get c.doc k) (Site.declare n v v').assigns := by
      intro k
      show AMap.get (AMap.set c.doc n v') k = if n = k then some v' else AMap.get c.doc k
      rw [AMap.get_set]
      by_cases hk : n = k
      · subst hk; simp
      · rw [if_neg hk, if_neg (by first | exact hk | exact fun e => hk e.symm)]
    refine ⟨v', rfl, Visits.one h ⟨hv, ?_⟩ ?_⟩
    · rw [← h2]; split <;> rfl
    · by_cases hn : n = "experimental"
      · rw [if_pos hn] at h2
        subst h2
        refine context_step h _ rfl hdoc (fun opts => ?_)
        show settle (c.opts ++ [.experimental true] ++ opts) = _
        rw [settle_exp h]
        show _ = List.foldl Opt.apply ⟨_, _, _, if n = "experimental" then true else _⟩ opts
        rw [if_pos hn]
      · rw [if_neg hn] at h2
        subst h2
        refine context_step h _ rfl hdoc (fun opts => ?_)
        show settle (c.opts ++ opts) = List.foldl Opt.apply ⟨_, _, _, if n = "experimental" then true else _⟩ opts
        rw [if_neg hn]
        exact h.2.2.1 opts

theorem visit_reset {W : World} {api : AMap Any} {done : List Site} {c : Walk.Ctx} (n : String)
    (h : contextAt api done c.counters c) : Visits W api done c [.reset n] (substReset c n) := by
  have hdoc : ∀ k, AMap.get (c.unset n).doc k = lastFrom k (AMap.get c.doc k) (Site.reset n).assigns := by
    intro k
    show AMap.get (AMap.del c.doc n) k = if n = k then none else AMap.get c.doc k
    rw [AMap.get_del]
    by_cases hk : n = k
    · subst hk; simp
    · rw [if_neg hk, if_neg (by first | exact hk | exact fun e => hk e.symm)]
  unfold substReset
  dsimp only
  by_cases hn : n = "experimental"
  · rw [if_pos hn]
    refine Visits.one h rfl (context_step h _ rfl hdoc (fun opts => ?_))
    show settle (c.opts ++ [.experimental false] ++ opts) = _
    rw [settle_exp h]
    show _ = List.foldl Opt.apply ⟨_, _, _, if n = "experimental" then false else _⟩ opts
    rw [if_pos hn]
  · rw [if_neg hn]
    refine Visits.one h rfl (context_step h _ rfl hdoc (fun opts => ?_))
    show settle (c.opts ++ opts) = List.foldl Opt.apply ⟨_, _, _, if n = "experimental" then false else _⟩ opts
    rw [if_neg hn]
    exact h.2.2.1 opts

theorem visit_front {W : World} {api : AMap Any} {done : List Site} {c : Walk.Ctx} (a : Attrs)
    (h : contextAt api done c.counters c) : Visits W api done c [.front a] (c.setAll a) :=
  Visits.one h rfl (context_step h _ rfl (fun k => get_setAll_last k a c.doc) (fun opts => h.2.2.1 opts))

theorem lastFrom_append (k : String) (cur : Option Any) (l l' : List (String × Option Any)) :
    lastFrom k cur (l ++ l') = lastFrom k (lastFrom k cur l) l' := by
  unfold lastFrom; rw [List.foldl_append]

/-- The context after the author and revision lines. -/
def afterInfo (c : Walk.Ctx) (authors : Option (List (Text × Text × Text × Text))) (es : List Any) : Walk.Ctx :=
  let c := match authors with
    | some l => c.setAll (expandAuthors l)
    | none => c
  match revisionOf es with
  | some (n, d, r) => c.setAll (expandRevision n d r)
  | none => c

theorem afterInfo_same (c : Walk.Ctx) (authors) (es : List Any) :
    (afterInfo c authors es).api = c.api ∧ (afterInfo c authors es).opts = c.opts ∧ (afterInfo c authors es).counters = c.counters := by
  unfold afterInfo
  cases authors <;> dsimp only <;> split <;> exact ⟨rfl, rfl, rfl⟩

theorem visit_info {W : World} {api : AMap Any} {done : List Site} {c : Walk.Ctx} (es : List Any) (r)
    (h : contextAt api done c.counters c) (hr : authorsOf es none = .ok r) :
    Visits W api done c [.info es] (afterInfo c r es) := by
  obtain ⟨e1, e2, e3⟩ := afterInfo_same c r es
  refine Visits.one h ⟨⟨r, hr⟩, e3⟩ (context_step h _ e1 (fun k => ?_) (fun opts => by rw [e2]; exact h.2.2.1 opts))
  unfold Site.assigns
  dsimp only
  rw [hr]
  unfold afterInfo
  dsimp only
  rw [List.map_append, lastFrom_append]
  cases r with
  | none =>
    dsimp only
    cases revisionOf es with
    | none => rfl
    | some p => exact get_setAll_last k (expandRevision p.1 p.2.1 p.2.2) c.doc
  | some l =>
    dsimp only
    rw [← get_setAll_last k (expandAuthors l) c.doc]
    cases revisionOf es with
    | none => rfl
    | some p => exact get_setAll_last k (expandRevision p.1 p.2.1 p.2.2) (c.setAll (expandAuthors l)).doc

theorem paragraph_shape {W : World} {c c' : Walk.Ctx} {opts : List Opt} {a : Attrs} {es : List Any} {e' : Any}
    (h : substParagraph W c opts a es = .ok (e', c')) : ∃ a' es' cs, e' = .paragraph a' es' ∧ c' = { c with counters := cs } := by
  unfold substParagraph at h
  revert h
  split
  · intro h; cases h
  · split
    · intro h; cases h
    · split
      · intro h; cases h
      · split
        · intro h; cases h
        · intro h; cases h; exact ⟨_, _, _, rfl, rfl⟩

theorem visit_paragraph {W : World} {api : AMap Any} {done : List Site} {c c' : Walk.Ctx} {nested : Bool} {opts : List Opt} {a : Attrs}
    {es : List Any} {e' : Any} (ho : optsFor nested opts) (h : contextAt api done c.counters c)
    (hs : substParagraph W c opts a es = .ok (e', c')) :
    ∃ a' es', e' = .paragraph a' es' ∧ Visits W api done c [.paragraph nested a a' es es'] c' := by
  obtain ⟨a', es', cs, rfl, rfl⟩ := paragraph_shape hs
  exact ⟨a', es', rfl, Visits.quiet h ⟨rfl, fun _ => rfl⟩ ⟨opts, ho, _, hs, rfl⟩⟩

theorem located_shape {W : World} {c c' : Walk.Ctx} {opts : List Opt} {n : Nat} {a : Attrs} {l : Option Any} {e' : Any}
    (h : substLocated W c opts n a l = .ok (e', c')) : ∃ a' l' cs, e' = .located n a' l' ∧ c' = { c with counters := cs } := by
  unfold substLocated at h
  revert h
  split
  · intro h; cases h
  · split
    · intro h; cases h
    · intro h; cases h; exact ⟨_, _, _, rfl, rfl⟩

theorem verbatim_shape {W : World} {c c' : Walk.Ctx} {opts : List Opt} {k : Kind} {a : Attrs} {subs} {es : List Any} {e' : Any}
    (h : substVerbatim W c opts k a subs es = .ok (e', c')) :
    ∃ a' es' cs, e' = .block k a' es' ∧ c' = { c with counters := cs } := by
  unfold substVerbatim at h
  dsimp only at h
  revert h
  split
  · intro h; cases h
  · intro h; cases h; exact ⟨_, _, _, rfl, rfl⟩

theorem slice_ctx {W : World} {c : Walk.Ctx} {a : Attrs} (cs : AMap CVal) :
    substAttrs W { c with counters := cs } [] a = substAttrs W c [] a := rfl

/-- The result of substituting a row: the places of the cells, with those of the rows that follow. -/
def RowPlaces (nested : Bool) (n : Nat) (r r' : List Any) (l : List Site) : Prop :=
  r'.length = r.length ∧ ∀ rest rest' l', PlacesCells nested (n - r.length) rest rest' l' →
    PlacesCells nested n (r ++ rest) (r' ++ rest') (l ++ l')

theorem row_nil (nested : Bool) (n : Nat) : RowPlaces nested n [] [] [] := ⟨rfl, fun _ _ _ h => h⟩

theorem row_cons {nested : Bool} {n : Nat} {e e' : Any} {es es' : List Any} {l l' : List Site}
    (he : ∀ rest rest' l', PlacesCells nested (n - 1) rest rest' l' → PlacesCells nested n (e :: rest) (e' :: rest') (l ++ l'))
    (h : RowPlaces nested (n - 1) es es' l') : RowPlaces nested n (e :: es) (e' :: es') (l ++ l') := by
  refine ⟨by simp [h.1], fun rest rest' l'' hr => ?_⟩
  rw [List.append_assoc]
  refine he _ _ _ (h.2 _ _ _ ?_)
  rwa [show n - 1 - es.length = n - (e :: es).length by simp; omega]

theorem row_append {nested : Bool} {n : Nat} {r r' rs rs' : List Any} {l l' : List Site} (h : RowPlaces nested n r r' l)
    (h' : RowPlaces nested (n - r.length) rs rs' l') : RowPlaces nested n (r ++ rs) (r' ++ rs') (l ++ l') := by
  refine ⟨by simp [h.1, h'.1], fun rest rest' l'' hr => ?_⟩
  rw [List.append_assoc, List.append_assoc, List.append_assoc]
  refine h.2 _ _ _ (h'.2 _ _ _ ?_)
  rwa [Nat.sub_sub, ← List.length_append]

theorem row_done {nested : Bool} {n : Nat} {r r' : List Any} {l : List Site} (h : RowPlaces nested n r r' l) :
    PlacesCells nested n r r' l := by
  have := h.2 [] [] [] .nil
  simpa using this

mutual
theorem visit_one (W : World) (api : AMap Any) : ∀ (e : Any) (nested : Bool) (opts : List Opt) (done : List Site) (c : Walk.Ctx) (e' : Any)
    (c' : Walk.Ctx), optsFor nested opts → contextAt api done c.counters c → substOne W c opts e = .ok (e', c') →
    ∃ l, Places nested e e' l ∧ Visits W api done c l c'
  | .frontMatter a, nested, opts, done, c, e', c', ho, hc, h => by
    unfold substOne at h; cases h
    exact ⟨_, .front, visit_front a hc⟩
  | .header a title es, nested, opts, done, c, e', c', ho, hc, h => by
    conv at h => lhs; unfold substOne
    cases h1 : substAll W c opts es with
    | error b => rw [h1] at h; cases h
    | ok p =>
      obtain ⟨es', c1⟩ := p
      rw [h1] at h
      dsimp only at h
      cases h2 : authorsOf es' none with
      | error b => rw [h2] at h; cases h
      | ok r =>
        rw [h2] at h
        dsimp only at h
        change ((match substAttrs W (afterInfo c1 r es') [] a with
          | Except.error b => Except.error b
          | Except.ok a => match substTitle W (afterInfo c1 r es') title with
            | Except.error b => Except.error b
            | Except.ok (title, cs) => Except.ok (.header a title es', { afterInfo c1 r es' with counters := cs })) :
              Except Bad (Any × Walk.Ctx)) = _ at h
        cases h3 : substAttrs W (afterInfo c1 r es') [] a with
        | error b => rw [h3] at h; cases h
        | ok a' =>
          rw [h3] at h
          dsimp only at h
          cases h4 : substTitle W (afterInfo c1 r es') title with
          | error b => rw [h4] at h; cases h
          | ok q =>
            obtain ⟨t', cs'⟩ := q
            rw [h4] at h
            cases h
            obtain ⟨l, hl, hv⟩ := visit_all W api es nested opts done c es' c1 ho hc h1
            have hi := visit_info (W := W) es' r hv.after h2
            have ht : Visits W api _ (afterInfo c1 r es') [.heading a a' title t'] { afterInfo c1 r es' with counters := cs' } :=
              Visits.quiet hi.after ⟨rfl, fun _ => rfl⟩ ⟨h3, h4⟩
            exact ⟨_, .header hl, hv.append (hi.append ht)⟩
  | .declare n v, nested, opts, done, c, e', c', ho, hc, h => by
    unfold substOne at h
    obtain ⟨v', rfl, hv⟩ := visit_declare hc h
    exact ⟨_, .declare, hv⟩
  | .reset n, nested, opts, done, c, e', c', ho, hc, h => by
    unfold substOne at h; cases h
    exact ⟨_, .reset, visit_reset n hc⟩
  | .section lv a title, nested, opts, done, c, e', c', ho, hc, h => by
    conv at h => lhs; unfold substOne
    cases h3 : substAttrs W c [] a with
    | error b => rw [h3] at h; cases h
    | ok a1 =>
      rw [h3] at h
      dsimp only at h
      cases h4 : substTitle W c title with
      | error b => rw [h4] at h; cases h
      | ok q =>
        obtain ⟨t1, cs'⟩ := q
        rw [h4] at h
        dsimp only at h
        cases h5 : setSectionTitle W a1 t1 with
        | error b => rw [h5] at h; cases h
        | ok q =>
          obtain ⟨a', t'⟩ := q
          rw [h5] at h
          cases h
          exact ⟨_, .section, Visits.quiet hc ⟨rfl, fun _ => rfl⟩ ⟨a1, t1, h3, h4, h5⟩⟩
  | .continuation o e, nested, opts, done, c, e', c', ho, hc, h => by
    conv at h => lhs; unfold substOne
    cases h1 : substOne W c opts e with
    | error b => rw [h1] at h; cases h
    | ok p =>
      obtain ⟨e1, c1⟩ := p
      rw [h1] at h
      cases h
      obtain ⟨l, hl, hv⟩ := visit_one W api e nested opts done c e1 _ ho hc h1
      exact ⟨l, .continuation hl, hv⟩
  | .labeled n a term es, nested, opts, done, c, e', c', ho, hc, h => by
    conv at h => lhs; unfold substOne
    cases h3 : substAttrs W c opts a with
    | error b => rw [h3] at h; cases h
    | ok a' =>
      rw [h3] at h
      dsimp only at h
      cases h4 : subsFor .other a' with
      | error b => rw [h4] at h; cases h
      | ok subs =>
        rw [h4] at h
        dsimp only at h
        cases h5 : substSlice W c subs (opts ++ [.entry .normalGroup]) term with
        | error b => rw [h5] at h; cases h
        | ok q =>
          obtain ⟨t', cs⟩ := q
          rw [h5] at h
          dsimp only at h
          cases h6 : substAll W { c with counters := cs } (opts ++ [.entry .normalGroup]) es with
          | error b => rw [h6] at h; cases h
          | ok q =>
            obtain ⟨es', c1⟩ := q
            rw [h6] at h
            cases h
            have ht : Visits W api done c [.term nested a a' term t'] { c with counters := cs } :=
              Visits.quiet hc ⟨rfl, fun _ => rfl⟩ ⟨opts, subs, ho, h3, h4, h5⟩
            obtain ⟨l, hl, hv⟩ := visit_all W api es true _ _ { c with counters := cs } es' _ (opts_nested ho) ht.after h6
            exact ⟨_, .labeled hl, ht.append hv⟩
  | .block k a es, nested, opts, done, c, e', c', ho, hc, h => by
    conv at h => lhs; unfold substOne
    cases h3 : substAttrs W c opts a with
    | error b => rw [h3] at h; cases h
    | ok a' =>
      rw [h3] at h
      dsimp only at h
      cases h4 : subsFor (blockOf k) a' with
      | error b => rw [h4] at h; cases h
      | ok subs =>
        rw [h4] at h
        dsimp only at h
        cases hk : k.compound with
        | true =>
          rw [hk, if_pos rfl] at h
          cases h6 : substAll W c (opts ++ [.entry .normalGroup]) es with
          | error b => rw [h6] at h; cases h
          | ok q =>
            obtain ⟨es', c1⟩ := q
            rw [h6] at h
            cases h
            have ht : Visits W api done c [.attrs nested (some (blockOf k)) a a'] c :=
              Visits.quiet (cs' := c.counters) hc ⟨rfl, fun _ => rfl⟩ ⟨⟨opts, ho, h3⟩, fun b' hb => by cases hb; exact ⟨subs, h4⟩, rfl⟩
            obtain ⟨l, hl, hv⟩ := visit_all W api es true _ _ c es' _ (opts_nested ho) ht.after h6
            exact ⟨_, .compound (compound_iff.1 hk) hl, ht.append hv⟩
        | false =>
          rw [hk, if_neg (by decide)] at h
          obtain ⟨a2, es', cs, rfl, rfl⟩ := verbatim_shape h
          exact ⟨_, .verbatim (fun h => by rw [compound_iff.2 h] at hk; cases hk), Visits.quiet hc ⟨rfl, fun _ => rfl⟩ ⟨opts, a', subs, ho, h3, h4, _, h, rfl⟩⟩
  | .paragraph a es, nested, opts, done, c, e', c', ho, hc, h => by
    unfold substOne at h
    obtain ⟨a', es', rfl, hv⟩ := visit_paragraph ho hc h
    exact ⟨_, .paragraph, hv⟩
  | .group n a es, nested, opts, done, c, e', c', ho, hc, h => by
    conv at h => lhs; unfold substOne
    cases h3 : substAttrs W c opts a with
    | error b => rw [h3] at h; cases h
    | ok a' =>
      rw [h3] at h
      dsimp only at h
      cases h4 : subsFor .other a' with
      | error b => rw [h4] at h; cases h
      | ok subs =>
        rw [h4] at h
        dsimp only at h
        cases h6 : substAll W c (opts ++ [.entry .normalGroup]) es with
        | error b => rw [h6] at h; cases h
        | ok q =>
          obtain ⟨es', c1⟩ := q
          rw [h6] at h
          cases h
          have ht : Visits W api done c [.attrs nested (some .other) a a'] c :=
            Visits.quiet (cs' := c.counters) hc ⟨rfl, fun _ => rfl⟩ ⟨⟨opts, ho, h3⟩, fun b' hb => by cases hb; exact ⟨subs, h4⟩, rfl⟩
          obtain ⟨l, hl, hv⟩ := visit_all W api es true _ _ c es' _ (opts_nested ho) ht.after h6
          exact ⟨_, .group hl, ht.append hv⟩
  | .cell f es, nested, opts, done, c, e', c', ho, hc, h => by
    conv at h => lhs; unfold substOne
    cases h6 : substAll W c (opts ++ [.entry .normalGroup]) es with
    | error b => rw [h6] at h; cases h
    | ok q =>
      obtain ⟨es', c1⟩ := q
      rw [h6] at h
      cases h
      obtain ⟨l, hl, hv⟩ := visit_all W api es true _ done c es' _ (opts_nested ho) hc h6
      exact ⟨_, .cell hl, hv⟩
  | .located n a l, nested, opts, done, c, e', c', ho, hc, h => by
    unfold substOne at h
    obtain ⟨a', l', cs, rfl, rfl⟩ := located_shape h
    exact ⟨_, .located, Visits.quiet hc ⟨rfl, fun _ => rfl⟩ ⟨opts, ho, _, h, rfl⟩⟩
  | .table a hd rows f, nested, opts, done, c, e', c', ho, hc, h => by
    conv at h => lhs; unfold substOne
    cases h1 : substAttrs W c [] a with
    | error b => rw [h1] at h; cases h
    | ok a' =>
      rw [h1] at h
      dsimp only at h
      cases h2 : organize a' hd rows f with
      | error b => rw [h2] at h; cases h
      | ok t =>
        rw [h2] at h
        dsimp only at h
        cases h3 : substRow? W c opts (t.1.getD []).length hd with
        | error b => rw [h3] at h; cases h
        | ok q =>
          obtain ⟨hd', c1⟩ := q
          rw [h3] at h
          dsimp only at h
          cases h4 : substRows W c1 opts ((t.1.getD []).length - (hd'.getD []).length) rows with
          | error b => rw [h4] at h; cases h
          | ok q =>
            obtain ⟨rows', c2⟩ := q
            rw [h4] at h
            dsimp only at h
            cases h5 : substRow? W c2 opts ((t.1.getD []).length - (hd'.getD []).length - rows'.flatten.length) f with
            | error b => rw [h5] at h; cases h
            | ok q =>
              obtain ⟨f', c3⟩ := q
              rw [h5] at h
              dsimp only at h
              cases h6 : organize a' hd' rows' f' with
              | error b => rw [h6] at h; cases h
              | ok t' =>
                rw [h6] at h
                cases h
                have ht : Visits W api done c [.attrs false none a a'] c :=
                  Visits.quiet (cs' := c.counters) hc ⟨rfl, fun _ => rfl⟩ ⟨⟨[], opts_top, h1⟩, fun b' hb => (by cases hb), rfl⟩
                obtain ⟨l1, hl1, hs1, hv1⟩ := visit_row? W api hd nested opts _ _ c hd' c1 ho ht.after h3
                obtain ⟨l2, hl2, hv2⟩ := visit_rows W api rows nested opts _ _ c1 rows' c2 ho hv1.after h4
                obtain ⟨l3, hl3, hs3, hv3⟩ := visit_row? W api f nested opts _ _ c2 f' _ ho hv2.after h5
                rw [hl1.1] at hl2
                rw [hl1.1, hl2.1] at hl3
                have hrow := row_append hl1 hl2
                have hrow := row_append hrow (by rw [List.length_append, ← Nat.sub_sub]; exact hl3)
                have hlen := organize_header h2 h6 hs1.symm hl1.1.symm hrow.1.symm
                have hp := row_done hrow
                rw [hlen, ← organize_cells h6] at hp
                have hvv := ht.append (hv1.append (by
                  have := hv2.append (by simpa [List.append_assoc] using hv3)
                  exact this))
                refine ⟨_, .table hp, ?_⟩
                simpa [List.append_assoc] using hvv
  | .nil, nested, opts, done, c, e', c', ho, hc, h => by unfold substOne at h; cases h; exact ⟨[], .other rfl, .nil hc⟩
  | .text _, nested, opts, done, c, e', c', ho, hc, h => by unfold substOne at h; cases h; exact ⟨[], .other rfl, .nil hc⟩
  | .plain _, nested, opts, done, c, e', c', ho, hc, h => by unfold substOne at h; cases h; exact ⟨[], .other rfl, .nil hc⟩
  | .fullName _ _ _, nested, opts, done, c, e', c', ho, hc, h => by unfold substOne at h; cases h; exact ⟨[], .other rfl, .nil hc⟩
  | .slice _, nested, opts, done, c, e', c', ho, hc, h => by unfold substOne at h; cases h; exact ⟨[], .other rfl, .nil hc⟩
  | .roles _, nested, opts, done, c, e', c', ho, hc, h => by unfold substOne at h; cases h; exact ⟨[], .other rfl, .nil hc⟩
  | .options _, nested, opts, done, c, e', c', ho, hc, h => by unfold substOne at h; cases h; exact ⟨[], .other rfl, .nil hc⟩
  | .ref _, nested, opts, done, c, e', c', ho, hc, h => by unfold substOne at h; cases h; exact ⟨[], .other rfl, .nil hc⟩
  | .counter _ _ _, nested, opts, done, c, e', c', ho, hc, h => by unfold substOne at h; cases h; exact ⟨[], .other rfl, .nil hc⟩
  | .str _, nested, opts, done, c, e', c', ho, hc, h => by unfold substOne at h; cases h; exact ⟨[], .other rfl, .nil hc⟩
  | .raw _, nested, opts, done, c, e', c', ho, hc, h => by unfold substOne at h; cases h; exact ⟨[], .other rfl, .nil hc⟩
  | .special _, nested, opts, done, c, e', c', ho, hc, h => by unfold substOne at h; cases h; exact ⟨[], .other rfl, .nil hc⟩
  | .dash, nested, opts, done, c, e', c', ho, hc, h => by unfold substOne at h; cases h; exact ⟨[], .other rfl, .nil hc⟩
  | .holder _, nested, opts, done, c, e', c', ho, hc, h => by unfold substOne at h; cases h; exact ⟨[], .other rfl, .nil hc⟩
  | .anchor _, nested, opts, done, c, e', c', ho, hc, h => by unfold substOne at h; cases h; exact ⟨[], .other rfl, .nil hc⟩
  | .column _, nested, opts, done, c, e', c', ho, hc, h => by unfold substOne at h; cases h; exact ⟨[], .other rfl, .nil hc⟩
  | .leaf _, nested, opts, done, c, e', c', ho, hc, h => by unfold substOne at h; cases h; exact ⟨[], .other rfl, .nil hc⟩
  | .closed _ _, nested, opts, done, c, e', c', ho, hc, h => by unfold substOne at h; cases h; exact ⟨[], .other rfl, .nil hc⟩
  | .passthrough _, nested, opts, done, c, e', c', ho, hc, h => by unfold substOne at h; cases h; exact ⟨[], .other rfl, .nil hc⟩
  | .authors _, nested, opts, done, c, e', c', ho, hc, h => by unfold substOne at h; cases h; exact ⟨[], .other rfl, .nil hc⟩
  | .revision _ _ _, nested, opts, done, c, e', c', ho, hc, h => by unfold substOne at h; cases h; exact ⟨[], .other rfl, .nil hc⟩
theorem visit_all (W : World) (api : AMap Any) : ∀ (es : List Any) (nested : Bool) (opts : List Opt) (done : List Site) (c : Walk.Ctx)
    (es' : List Any) (c' : Walk.Ctx), optsFor nested opts → contextAt api done c.counters c → substAll W c opts es = .ok (es', c') →
    ∃ l, PlacesAll nested es es' l ∧ Visits W api done c l c'
  | [], nested, opts, done, c, es', c', ho, hc, h => by
    unfold substAll at h; cases h
    exact ⟨[], .nil, .nil hc⟩
  | e :: es, nested, opts, done, c, es', c', ho, hc, h => by
    conv at h => lhs; unfold substAll
    cases h1 : substOne W c opts e with
    | error b => rw [h1] at h; cases h
    | ok p =>
      obtain ⟨e1, c1⟩ := p
      rw [h1] at h
      dsimp only at h
      cases h2 : substAll W c1 opts es with
      | error b => rw [h2] at h; cases h
      | ok p =>
        obtain ⟨es1, c2⟩ := p
        rw [h2] at h
        cases h
        obtain ⟨l, hl, hv⟩ := visit_one W api e nested opts done c e1 c1 ho hc h1
        obtain ⟨l', hl', hv'⟩ := visit_all W api es nested opts _ c1 es1 _ ho hv.after h2
        exact ⟨_, .cons hl hl', hv.append hv'⟩
theorem visit_cell (W : World) (api : AMap Any) : ∀ (e : Any) (nested : Bool) (opts : List Opt) (n : Nat) (done : List Site) (c : Walk.Ctx)
    (e' : Any) (c' : Walk.Ctx), optsFor nested opts → contextAt api done c.counters c →
    substCell W c opts (decide (0 < n)) e = .ok (e', c') →
    ∃ l, (∀ rest rest' l', PlacesCells nested (n - 1) rest rest' l' → PlacesCells nested n (e :: rest) (e' :: rest') (l ++ l')) ∧
      Visits W api done c l c'
  | .cell f es, nested, opts, n, done, c, e', c', ho, hc, h => by
    conv at h => lhs; unfold substCell
    cases n with
    | zero =>
      rw [if_neg (by decide)] at h
      cases h6 : substAll W c (opts ++ [.entry .normalGroup]) es with
      | error b => rw [h6] at h; cases h
      | ok q =>
        obtain ⟨es', c1⟩ := q
        rw [h6] at h
        cases h
        obtain ⟨l, hl, hv⟩ := visit_all W api es true _ done c es' _ (opts_nested ho) hc h6
        exact ⟨l, fun rest rest' l' hr => .body hl hr, hv⟩
    | succ n =>
      rw [if_pos (by simp)] at h
      by_cases hp : ∃ a ps, es = [.paragraph a ps]
      · obtain ⟨a, ps, rfl⟩ := hp
        dsimp only at h
        cases h6 : substParagraph W c opts a ps with
        | error b => rw [h6] at h; cases h
        | ok q =>
          obtain ⟨p', c1⟩ := q
          rw [h6] at h
          cases h
          obtain ⟨a', es', rfl, hv⟩ := visit_paragraph ho hc h6
          exact ⟨_, fun rest rest' l' hr => .head (show PlacesCells nested n rest rest' l' from hr), hv⟩
      · have h' : e' = .cell f es ∧ c' = c := by
          revert h
          split
          · rename_i a ps
            exact absurd ⟨a, ps, rfl⟩ hp
          · intro h; cases h; exact ⟨rfl, rfl⟩
        obtain ⟨rfl, rfl⟩ := h'
        exact ⟨[], fun rest rest' l' hr => .skip (fun a p e => hp ⟨a, p, e⟩) (show PlacesCells nested n rest rest' l' from hr), .nil hc⟩
  | .nil, nested, opts, n, done, c, e', c', ho, hc, h => by
    unfold substCell at h; cases h; exact ⟨[], fun rest rest' l' hr => .stray (fun _ _ e => nomatch e) hr, .nil hc⟩
  | .text _, nested, opts, n, done, c, e', c', ho, hc, h => by
    unfold substCell at h; cases h; exact ⟨[], fun rest rest' l' hr => .stray (fun _ _ e => nomatch e) hr, .nil hc⟩
  | .plain _, nested, opts, n, done, c, e', c', ho, hc, h => by
    unfold substCell at h; cases h; exact ⟨[], fun rest rest' l' hr => .stray (fun _ _ e => nomatch e) hr, .nil hc⟩
  | .fullName _ _ _, nested, opts, n, done, c, e', c', ho, hc, h => by
    unfold substCell at h; cases h; exact ⟨[], fun rest rest' l' hr => .stray (fun _ _ e => nomatch e) hr, .nil hc⟩
  | .slice _, nested, opts, n, done, c, e', c', ho, hc, h => by
    unfold substCell at h; cases h; exact ⟨[], fun rest rest' l' hr => .stray (fun _ _ e => nomatch e) hr, .nil hc⟩
  | .roles _, nested, opts, n, done, c, e', c', ho, hc, h => by
    unfold substCell at h; cases h; exact ⟨[], fun rest rest' l' hr => .stray (fun _ _ e => nomatch e) hr, .nil hc⟩
  | .options _, nested, opts, n, done, c, e', c', ho, hc, h => by
    unfold substCell at h; cases h; exact ⟨[], fun rest rest' l' hr => .stray (fun _ _ e => nomatch e) hr, .nil hc⟩
  | .ref _, nested, opts, n, done, c, e', c', ho, hc, h => by
    unfold substCell at h; cases h; exact ⟨[], fun rest rest' l' hr => .stray (fun _ _ e => nomatch e) hr, .nil hc⟩
  | .counter _ _ _, nested, opts, n, done, c, e', c', ho, hc, h => by
    unfold substCell at h; cases h; exact ⟨[], fun rest rest' l' hr => .stray (fun _ _ e => nomatch e) hr, .nil hc⟩
  | .str _, nested, opts, n, done, c, e', c', ho, hc, h => by
    unfold substCell at h; cases h; exact ⟨[], fun rest rest' l' hr => .stray (fun _ _ e => nomatch e) hr, .nil hc⟩
  | .raw _, nested, opts, n, done, c, e', c', ho, hc, h => by
    unfold substCell at h; cases h; exact ⟨[], fun rest rest' l' hr => .stray (fun _ _ e => nomatch e) hr, .nil hc⟩
  | .special _, nested, opts, n, done, c, e', c', ho, hc, h => by
    unfold substCell at h; cases h; exact ⟨[], fun rest rest' l' hr => .stray (fun _ _ e => nomatch e) hr, .nil hc⟩
  | .dash, nested, opts, n, done, c, e', c', ho, hc, h => by
    unfold substCell at h; cases h; exact ⟨[], fun rest rest' l' hr => .stray (fun _ _ e => nomatch e) hr, .nil hc⟩
  | .holder _, nested, opts, n, done, c, e', c', ho, hc, h => by
    unfold substCell at h; cases h; exact ⟨[], fun rest rest' l' hr => .stray (fun _ _ e => nomatch e) hr, .nil hc⟩
  | .anchor _, nested, opts, n, done, c, e', c', ho, hc, h => by
    unfold substCell at h; cases h; exact ⟨[], fun rest rest' l' hr => .stray (fun _ _ e => nomatch e) hr, .nil hc⟩
  | .column _, nested, opts, n, done, c, e', c', ho, hc, h => by
    unfold substCell at h; cases h; exact ⟨[], fun rest rest' l' hr => .stray (fun _ _ e => nomatch e) hr, .nil hc⟩
  | .leaf _, nested, opts, n, done, c, e', c', ho, hc, h => by
    unfold substCell at h; cases h; exact ⟨[], fun rest rest' l' hr => .stray (fun _ _ e => nomatch e) hr, .nil hc⟩
  | .closed _ _, nested, opts, n, done, c, e', c', ho, hc, h => by
    unfold substCell at h; cases h; exact ⟨[], fun rest rest' l' hr => .stray (fun _ _ e => nomatch e) hr, .nil hc⟩
  | .passthrough _, nested, opts, n, done, c, e', c', ho, hc, h => by
    unfold substCell at h; cases h; exact ⟨[], fun rest rest' l' hr => .stray (fun _ _ e => nomatch e) hr, .nil hc⟩
  | .authors _, nested, opts, n, done, c, e', c', ho, hc, h => by
    unfold substCell at h; cases h; exact ⟨[], fun rest rest' l' hr => .stray (fun _ _ e => nomatch e) hr, .nil hc⟩
  | .revision _ _ _, nested, opts, n, done, c, e', c', ho, hc, h => by
    unfold substCell at h; cases h; exact ⟨[], fun rest rest' l' hr => .stray (fun _ _ e => nomatch e) hr, .nil hc⟩
  | .located _ _ _, nested, opts, n, done, c, e', c', ho, hc, h => by
    unfold substCell at h; cases h; exact ⟨[], fun rest rest' l' hr => .stray (fun _ _ e => nomatch e) hr, .nil hc⟩
  | .group _ _ _, nested, opts, n, done, c, e', c', ho, hc, h => by
    unfold substCell at h; cases h; exact ⟨[], fun rest rest' l' hr => .stray (fun _ _ e => nomatch e) hr, .nil hc⟩
  | .paragraph _ _, nested, opts, n, done, c, e', c', ho, hc, h => by
    unfold substCell at h; cases h; exact ⟨[], fun rest rest' l' hr => .stray (fun _ _ e => nomatch e) hr, .nil hc⟩
  | .block _ _ _, nested, opts, n, done, c, e', c', ho, hc, h => by
    unfold substCell at h; cases h; exact ⟨[], fun rest rest' l' hr => .stray (fun _ _ e => nomatch e) hr, .nil hc⟩
  | .labeled _ _ _ _, nested, opts, n, done, c, e', c', ho, hc, h => by
    unfold substCell at h; cases h; exact ⟨[], fun rest rest' l' hr => .stray (fun _ _ e => nomatch e) hr, .nil hc⟩
  | .continuation _ _, nested, opts, n, done, c, e', c', ho, hc, h => by
    unfold substCell at h; cases h; exact ⟨[], fun rest rest' l' hr => .stray (fun _ _ e => nomatch e) hr, .nil hc⟩
  | .table _ _ _ _, nested, opts, n, done, c, e', c', ho, hc, h => by
    unfold substCell at h; cases h; exact ⟨[], fun rest rest' l' hr => .stray (fun _ _ e => nomatch e) hr, .nil hc⟩
  | .section _ _ _, nested, opts, n, done, c, e', c', ho, hc, h => by
    unfold substCell at h; cases h; exact ⟨[], fun rest rest' l' hr => .stray (fun _ _ e => nomatch e) hr, .nil hc⟩
  | .header _ _ _, nested, opts, n, done, c, e', c', ho, hc, h => by
    unfold substCell at h; cases h; exact ⟨[], fun rest rest' l' hr => .stray (fun _ _ e => nomatch e) hr, .nil hc⟩
  | .declare _ _, nested, opts, n, done, c, e', c', ho, hc, h => by
    unfold substCell at h; cases h; exact ⟨[], fun rest rest' l' hr => .stray (fun _ _ e => nomatch e) hr, .nil hc⟩
  | .reset _, nested, opts, n, done, c, e', c', ho, hc, h => by
    unfold substCell at h; cases h; exact ⟨[], fun rest rest' l' hr => .stray (fun _ _ e => nomatch e) hr, .nil hc⟩
  | .frontMatter _, nested, opts, n, done, c, e', c', ho, hc, h => by
    unfold substCell at h; cases h; exact ⟨[], fun rest rest' l' hr => .stray (fun _ _ e => nomatch e) hr, .nil hc⟩
theorem visit_row (W : World) (api : AMap Any) : ∀ (r : List Any) (nested : Bool) (opts : List Opt) (n : Nat) (done : List Site) (c : Walk.Ctx)
    (r' : List Any) (c' : Walk.Ctx), optsFor nested opts → contextAt api done c.counters c → substRow W c opts n r = .ok (r', c') →
    ∃ l, RowPlaces nested n r r' l ∧ Visits W api done c l c'
  | [], nested, opts, n, done, c, r', c', ho, hc, h => by
    unfold substRow at h; cases h
    exact ⟨[], row_nil _ _, .nil hc⟩
  | e :: es, nested, opts, n, done, c, r', c', ho, hc, h => by
    conv at h => lhs; unfold substRow
    cases h1 : substCell W c opts (decide (0 < n)) e with
    | error b => rw [h1] at h; cases h
    | ok p =>
      obtain ⟨e1, c1⟩ := p
      rw [h1] at h
      dsimp only at h
      cases h2 : substRow W c1 opts (n - 1) es with
      | error b => rw [h2] at h; cases h
      | ok p =>
        obtain ⟨es1, c2⟩ := p
        rw [h2] at h
        cases h
        obtain ⟨l, hl, hv⟩ := visit_cell W api e nested opts n done c e1 c1 ho hc h1
        obtain ⟨l', hl', hv'⟩ := visit_row W api es nested opts (n - 1) _ c1 es1 _ ho hv.after h2
        exact ⟨_, row_cons hl hl', hv.append hv'⟩
theorem visit_row? (W : World) (api : AMap Any) : ∀ (r : Option (List Any)) (nested : Bool) (opts : List Opt) (n : Nat) (done : List Site)
    (c : Walk.Ctx) (r' : Option (List Any)) (c' : Walk.Ctx), optsFor nested opts → contextAt api done c.counters c →
    substRow? W c opts n r = .ok (r', c') →
    ∃ l, RowPlaces nested n (r.getD []) (r'.getD []) l ∧ r'.isSome = r.isSome ∧ Visits W api done c l c'
  | none, nested, opts, n, done, c, r', c', ho, hc, h => by
    unfold substRow? at h; cases h
    exact ⟨[], row_nil _ _, rfl, .nil hc⟩
  | some r, nested, opts, n, done, c, r', c', ho, hc, h => by
    conv at h => lhs; unfold substRow?
    cases h1 : substRow W c opts n r with
    | error b => rw [h1] at h; cases h
    | ok p =>
      obtain ⟨r1, c1⟩ := p
      rw [h1] at h
      cases h
      obtain ⟨l, hl, hv⟩ := visit_row W api r nested opts n done c r1 _ ho hc h1
      exact ⟨l, hl, rfl, hv⟩
theorem visit_rows (W : World) (api : AMap Any) : ∀ (rs : List (List Any)) (nested : Bool) (opts : List Opt) (n : Nat) (done : List Site)
    (c : Walk.Ctx) (rs' : List (List Any)) (c' : Walk.Ctx), optsFor nested opts → contextAt api done c.counters c →
    substRows W c opts n rs = .ok (rs', c') →
    ∃ l, RowPlaces nested n rs.flatten rs'.flatten l ∧ Visits W api done c l c'
  | [], nested, opts, n, done, c, rs', c', ho, hc, h => by
    unfold substRows at h; cases h
    exact ⟨[], row_nil _ _, .nil hc⟩
  | r :: rs, nested, opts, n, done, c, rs', c', ho, hc, h => by
    conv at h => lhs; unfold substRows
    cases h1 : substRow W c opts n r with
    | error b => rw [h1] at h; cases h
    | ok p =>
      obtain ⟨r1, c1⟩ := p
      rw [h1] at h
      dsimp only at h
      cases h2 : substRows W c1 opts (n - r1.length) rs with
      | error b => rw [h2] at h; cases h
      | ok p =>
        obtain ⟨rs1, c2⟩ := p
        rw [h2] at h
        cases h
        obtain ⟨l, hl, hv⟩ := visit_row W api r nested opts n done c r1 c1 ho hc h1
        obtain ⟨l', hl', hv'⟩ := visit_rows W api rs nested opts (n - r1.length) _ c1 rs1 _ ho hv.after h2
        rw [hl.1] at hl'
        exact ⟨_, row_append hl hl', hv.append hv'⟩
end

end Verif.C23.Doc
