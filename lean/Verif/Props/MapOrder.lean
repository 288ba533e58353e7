import Verif.Spec.Substitution
import Verif.Proofs.Substitute
import Verif.Proofs.KernelRfl
/-!
C56 — the result of the substitution stage does not depend on the order in which Go iterates over the attributes of the blocks.
-/
namespace Verif.C56
open Verif.Walk
open Verif.AttrRefs (CVal)

/-! ### Specification -/

/-- The same attributes (a map: no key twice), in another order. -/
structure Reordered (a a' : Attrs) : Prop where
  distinct : AMap.WF a
  perm : a.Perm a'

/-- The elements without attributes and elements. -/
def plain : Any → Bool
  | .frontMatter _ | .header _ _ _ | .section _ _ _ | .continuation _ _ | .labeled _ _ _ _
  | .block _ _ _ | .paragraph _ _ | .group _ _ _ | .cell _ _ | .located _ _ _ | .table _ _ _ _ => false
  | _ => true

mutual
/-- The same element, with the attributes of it and of the blocks in it in another order. The text of paragraphs, titles and
verbatim blocks is the same. -/
inductive Same : Any → Any → Prop
  | plain {e} : plain e = true → Same e e
  | front {a a'} : Reordered a a' → Same (.frontMatter a) (.frontMatter a')
  | header {a a' t es es'} : Reordered a a' → SameAll es es' → Same (.header a t es) (.header a' t es')
  | section {n a a' t} : Reordered a a' → Same (.section n a t) (.section n a' t)
  | continuation {o e e'} : Same e e' → Same (.continuation o e) (.continuation o e')
  | labeled {n a a' t es es'} : Reordered a a' → SameAll es es' → Same (.labeled n a t es) (.labeled n a' t es')
  | compound {k a a' es es'} : C23.Doc.Compound k → Reordered a a' → SameAll es es' → Same (.block k a es) (.block k a' es')
  | verbatim {k a a' es} : ¬ C23.Doc.Compound k → Reordered a a' → Same (.block k a es) (.block k a' es)
  | paragraph {a a' es} : Reordered a a' → Same (.paragraph a es) (.paragraph a' es)
  | group {n a a' es es'} : Reordered a a' → SameAll es es' → Same (.group n a es) (.group n a' es')
  | cell {f es es'} : SameAll es es' → Same (.cell f es) (.cell f es')
  | located {n a a' l} : Reordered a a' → Same (.located n a l) (.located n a' l)
  | table {a a' h h' rows rows' f f'} : Reordered a a' → SameRow h h' → SameRows rows rows' → SameRow f f' →
      Same (.table a h rows f) (.table a' h' rows' f')
/-- The same for a sequence of elements. -/
inductive SameAll : List Any → List Any → Prop
  | nil : SameAll [] []
  | cons {e e' es es'} : Same e e' → SameAll es es' → SameAll (e :: es) (e' :: es')
/-- The same for a row that may be absent. -/
inductive SameRow : Option (List Any) → Option (List Any) → Prop
  | none : SameRow none none
  | some {r r'} : SameAll r r' → SameRow (some r) (some r')
/-- The same for rows. -/
inductive SameRows : List (List Any) → List (List Any) → Prop
  | nil : SameRows [] []
  | cons {r r' rs rs'} : SameAll r r' → SameRows rs rs' → SameRows (r :: rs) (r' :: rs')
end

/-- The same results: both fail in the same way, or the results are related. -/
inductive Agree {α : Type} (R : α → α → Prop) : Except Bad α → Except Bad α → Prop
  | ok {x y} : R x y → Agree R (.ok x) (.ok y)
  | error {b} : Agree R (.error b) (.error b)

/-- The same context, where the attributes of the document are in another order. -/
structure SameCtx (c c' : Walk.Ctx) : Prop where
  api : ∀ k, AMap.get c.api k = AMap.get c'.api k
  doc : ∀ k, AMap.get c.doc k = AMap.get c'.doc k
  counters : c.counters = c'.counters
  opts : c.opts = c'.opts

/-! ### Attributes -/

theorem Agree.refl {α : Type} {R : α → α → Prop} (hR : ∀ x, R x x) : ∀ r : Except Bad α, Agree R r r
  | .ok x => .ok (hR x)
  | .error _ => .error

theorem Agree.trans {α : Type} {R : α → α → Prop} (hR : ∀ x y z, R x y → R y z → R x z) {r s t : Except Bad α} (h : Agree R r s)
    (h' : Agree R s t) : Agree R r t := by
  cases h with
  | ok h => cases h' with
    | ok h' => exact .ok (hR _ _ _ h h')
  | error => exact h'

/-- A failure is an error, not a panic. -/
def Plain {α : Type} (r : Except Bad α) : Prop := ∀ b, r = .error b → b = .error

theorem plain_value (W : World) (get : String → Option Any) (n : String) : Plain (valueForRef W get n) := by
  intro b h
  unfold valueForRef at h
  revert h
  split
  · intro h; cases h
  · rename_i es _
    unfold orError
    cases W.plainText es with
    | none => intro h; cases h; rfl
    | some t => intro h; cases h
  · intro h; cases h
  · intro h; cases h

mutual
theorem plain_item (W : World) (get : String → Option Any) : ∀ e, Plain (slicedItem W get e)
  | .ref n => by
    intro b h
    unfold slicedItem at h
    cases hv : valueForRef W get n with
    | error b' => rw [hv] at h; cases h; exact plain_value W get n _ hv
    | ok p => rw [hv] at h; cases h
  | .slice es => by
    intro b h
    conv at h => lhs; unfold slicedItem
    cases hv : slicedItems W get es with
    | error b' => rw [hv] at h; cases h; exact plain_items W get es _ hv
    | ok p => rw [hv] at h; cases h
  | .nil | .text _ | .plain _ | .fullName _ _ _ | .str _ | .counter _ _ _ | .roles _ | .options _
  | .raw _ | .special _ | .dash | .holder _ | .anchor _ | .column _ | .leaf _
  | .closed _ _ | .passthrough _ | .located _ _ _ | .group _ _ _ | .paragraph _ _ | .block _ _ _
  | .labeled _ _ _ _ | .continuation _ _ | .cell _ _ | .table _ _ _ _ | .section _ _ _
  | .header _ _ _ | .declare _ _ | .reset _ | .authors _ | .revision _ _ _ | .frontMatter _ => by
    intro b h; unfold slicedItem at h; cases h
theorem plain_items (W : World) (get : String → Option Any) : ∀ es, Plain (slicedItems W get es)
  | [] => by intro b h; unfold slicedItems at h; cases h
  | e :: es => by
    intro b h
    conv at h => lhs; unfold slicedItems
    cases h1 : slicedItem W get e with
    | error b' => rw [h1] at h; cases h; exact plain_item W get e _ h1
    | ok v =>
      rw [h1] at h
      dsimp only at h
      cases h2 : slicedItems W get es with
      | error b' => rw [h2] at h; cases h; exact plain_items W get es _ h2
      | ok l => rw [h2] at h; cases h
end

mutual
theorem plain_replace (W : World) (get : String → Option Any) : ∀ v, Plain (replaceValue W get v)
  | .slice es => by
    intro b h
    unfold replaceValue slicedValue at h
    cases hv : slicedItems W get es with
    | error b' => rw [hv] at h; cases h; exact plain_items W get es _ hv
    | ok p => rw [hv] at h; cases h
  | .roles l => by
    intro b h
    conv at h => lhs; unfold replaceValue
    cases hv : replaceValues W get l with
    | error b' => rw [hv] at h; cases h; exact plain_replaces W get l _ hv
    | ok p => rw [hv] at h; cases h
  | .options l => by
    intro b h
    conv at h => lhs; unfold replaceValue
    cases hv : replaceValues W get l with
    | error b' => rw [hv] at h; cases h; exact plain_replaces W get l _ hv
    | ok p => rw [hv] at h; cases h
  | .nil | .text _ | .plain _ | .fullName _ _ _ | .str _ | .counter _ _ _ | .ref _
  | .raw _ | .special _ | .dash | .holder _ | .anchor _ | .column _ | .leaf _
  | .closed _ _ | .passthrough _ | .located _ _ _ | .group _ _ _ | .paragraph _ _ | .block _ _ _
  | .labeled _ _ _ _ | .continuation _ _ | .cell _ _ | .table _ _ _ _ | .section _ _ _
  | .header _ _ _ | .declare _ _ | .reset _ | .authors _ | .revision _ _ _ | .frontMatter _ => by
    intro b h; unfold replaceValue at h; cases h
theorem plain_replaces (W : World) (get : String → Option Any) : ∀ l, Plain (replaceValues W get l)
  | [] => by intro b h; unfold replaceValues at h; cases h
  | v :: l => by
    intro b h
    conv at h => lhs; unfold replaceValues
    cases h1 : replaceValue W get v with
    | error b' => rw [h1] at h; cases h; exact plain_replace W get v _ h1
    | ok v =>
      rw [h1] at h
      dsimp only at h
      cases h2 : replaceValues W get l with
      | error b' => rw [h2] at h; cases h; exact plain_replaces W get l _ h2
      | ok l => rw [h2] at h; cases h
end

theorem plain_parse (W : World) (v : Any) (subs : List Subs.Sub) (opts : List Opt) : Plain (parseWith W v subs opts) := by
  intro b h
  unfold parseWith serialize at h
  revert h
  cases v <;> dsimp only <;> first
    | (intro h; cases h; rfl)
    | (split
       · intro h; cases h
       · split
         · intro h; cases h; rfl
         · intro h; cases h)

theorem plain_map {α β : Type} {r : Except Bad α} (h : Plain r) (f : α → β) : Plain (r.map f) := by
  intro b hb
  cases r with
  | error b' => cases hb; exact h _ rfl
  | ok x => cases hb

theorem plain_reparse (W : World) (ctxOpts opts : List Opt) (k : String) (v : Any) : Plain (reparseValue W ctxOpts opts k v) := by
  unfold reparseValue
  split
  · exact plain_map (plain_parse W v _ _) _
  split
  · exact plain_map (plain_parse W v _ _) _
  split
  · split
    · intro b h; cases h; rfl
    · exact plain_map (plain_parse W _ _ _) _
  · intro b h; cases h

/-- A change of the value of each attribute on its own, in the order of the list. -/
def each (f : String → Any → Except Bad Any) : Attrs → Except Bad Attrs
  | [] => .ok []
  | (k, v) :: a => match f k v with
    | .error b => .error b
    | .ok v => match each f a with
      | .error b => .error b
      | .ok a => .ok ((k, v) :: a)

theorem replaceAttrs_each (W : World) (get : String → Option Any) : ∀ a, replaceAttrs W get a = each (fun _ v => replaceValue W get v) a
  | [] => rfl
  | (k, v) :: a => by 
    unfold replaceAttrs each; rw [replaceAttrs_each W get a]
    cases replaceValue W get v <;> dsimp only
    cases each _ a <;> rfl

theorem reparseAttrs_each (W : World) (ctxOpts opts : List Opt) : ∀ a, reparseAttrs W ctxOpts opts a = each (reparseValue W ctxOpts opts) a
  | [] => rfl
  | (k, v) :: a => by 
    unfold reparseAttrs each; rw [reparseAttrs_each W ctxOpts opts a]
    cases reparseValue W ctxOpts opts k v <;> dsimp only
    cases each _ a <;> rfl

theorem plain_each {f : String → Any → Except Bad Any} (hf : ∀ k v, Plain (f k v)) : ∀ a, Plain (each f a)
  | [] => by intro b h; cases h
  | (k, v) :: a => by
    intro b h
    unfold each at h
    cases h1 : f k v with
    | error b' => rw [h1] at h; cases h; exact hf k v _ h1
    | ok v' =>
      rw [h1] at h
      dsimp only at h
      cases h2 : each f a with
      | error b' => rw [h2] at h; cases h; exact plain_each hf a _ h2
      | ok a' => rw [h2] at h; cases h

theorem each_keys {f : String → Any → Except Bad Any} : ∀ (a a' : Attrs), each f a = .ok a' → a'.map Prod.fst = a.map Prod.fst
  | [], a', h => by cases h; rfl
  | (k, v) :: a, a', h => by
    unfold each at h
    cases h1 : f k v with
    | error b' => rw [h1] at h; cases h
    | ok v' =>
      rw [h1] at h
      dsimp only at h
      cases h2 : each f a with
      | error b' => rw [h2] at h; cases h
      | ok a'' => rw [h2] at h; cases h; rw [List.map_cons, List.map_cons, each_keys a a'' h2]

theorem each_perm {f : String → Any → Except Bad Any} (hf : ∀ k v, Plain (f k v)) {a a' : Attrs} (h : a.Perm a') :
    Agree List.Perm (each f a) (each f a') := by
  induction h with
  | nil => exact .ok .nil
  | cons p h ih =>
    obtain ⟨k, v⟩ := p
    unfold each
    cases f k v with
    | error b => exact .error
    | ok v' =>
      dsimp only
      revert ih
      generalize each f _ = x
      generalize each f _ = y
      intro ih
      cases ih with
      | error => exact .error
      | ok h => exact .ok (.cons _ h)
  | swap p q l =>
    obtain ⟨k, v⟩ := p
    obtain ⟨k', v'⟩ := q
    unfold each
    have e1 := hf k v
    have e2 := hf k' v'
    have e3 := plain_each hf l
    conv => arg 2; unfold each
    conv => arg 3; unfold each
    revert e1 e2 e3
    generalize f k v = x
    generalize f k' v' = y
    generalize each f l = z
    intro e1 e2 e3
    cases x with
    | error b =>
      rw [e1 _ rfl]
      cases y with
      | error b' => rw [e2 _ rfl]; exact .error
      | ok y => exact .error
    | ok x =>
      cases y with
      | error b' => exact .error
      | ok y =>
        cases z with
        | error b => exact .error
        | ok z => exact .ok (.swap _ _ _)
  | trans _ _ ih ih' => exact Agree.trans (R := List.Perm) (fun x y z h h' => List.Perm.trans h h') ih ih'

theorem ctx_get {c c' : Walk.Ctx} (h : SameCtx c c') : c.get = c'.get := by
  funext k
  unfold Ctx.get
  rw [h.api, h.doc]

theorem attrs_agree (W : World) {c c' : Walk.Ctx} (hc : SameCtx c c') (opts : List Opt) {a a' : Attrs} (h : Reordered a a') :
    Agree Reordered (substAttrs W c opts a) (substAttrs W c' opts a') := by
  unfold substAttrs
  rw [ctx_get hc, hc.opts, replaceAttrs_each, replaceAttrs_each]
  have h1 := each_perm (f := fun _ v => replaceValue W c'.get v) (fun _ v => plain_replace W _ v) h.perm
  cases h2 : each (fun _ v => replaceValue W c'.get v) a with
  | error b =>
    rw [h2] at h1
    revert h1
    generalize each _ a' = y
    intro h1
    cases h1; exact .error
  | ok b =>
    rw [h2] at h1
    cases h3 : each (fun _ v => replaceValue W c'.get v) a' with
    | error b' => rw [h3] at h1; cases h1
    | ok b' =>
      rw [h3] at h1
      cases h1 with
      | ok h1 =>
      dsimp only
      rw [reparseAttrs_each, reparseAttrs_each]
      have h4 := each_perm (f := reparseValue W c'.opts opts) (plain_reparse W _ _) h1
      cases h5 : each (reparseValue W c'.opts opts) b with
      | error x =>
        rw [h5] at h4
        revert h4
        generalize each _ b' = y
        intro h4
        cases h4; exact .error
      | ok d =>
        rw [h5] at h4
        cases h6 : each (reparseValue W c'.opts opts) b' with
        | error x => rw [h6] at h4; cases h4
        | ok d' =>
          rw [h6] at h4
          cases h4 with
          | ok h4 =>
          refine .ok ⟨?_, h4⟩
          unfold AMap.WF
          rw [each_keys _ _ h5, each_keys _ _ h2]
          exact h.distinct

theorem get_reordered {a a' : Attrs} (h : Reordered a a') (k : String) : AMap.get a k = AMap.get a' k := AMap.get_perm h.distinct h.perm k

theorem getText_reordered {a a' : Attrs} (h : Reordered a a') (k : String) : getText a k = getText a' k := by
  unfold getText; rw [get_reordered h]

theorem getTextD_reordered (W : World) {a a' : Attrs} (h : Reordered a a') (k : String) : getTextD W a k = getTextD W a' k := by
  unfold getTextD; rw [get_reordered h]

theorem subsFor_reordered {a a' : Attrs} (h : Reordered a a') (b : Subs.Block) : subsFor b a = subsFor b a' := by
  unfold subsFor; rw [getText_reordered h]

theorem hasOption_reordered {a a' : Attrs} (h : Reordered a a') (k : String) : hasOption a k = hasOption a' k := by
  unfold hasOption; rw [get_reordered h, get_reordered h]

theorem perm_set {a a' : Attrs} (h : Reordered a a') (k : String) (v : Any) : Reordered (AMap.set a k v) (AMap.set a' k v) := by
  refine ⟨AMap.WF_set h.distinct _ _, ?_⟩
  unfold AMap.set AMap.del
  exact .cons _ (h.perm.filter _)

/-- The relation between two results of a step. -/
def Both (r r' : Any × Walk.Ctx) : Prop := Same r.1 r'.1 ∧ SameCtx r.2 r'.2
/-- The same for sequences. -/
def BothAll (r r' : List Any × Walk.Ctx) : Prop := SameAll r.1 r'.1 ∧ SameCtx r.2 r'.2

theorem with_counters {c c' : Walk.Ctx} (h : SameCtx c c') (cs : AMap CVal) : SameCtx { c with counters := cs } { c' with counters := cs } :=
  ⟨h.api, h.doc, rfl, h.opts⟩

theorem slice_eq (W : World) {c c' : Walk.Ctx} (h : SameCtx c c') (subs : List Subs.Sub) (opts : List Opt) (es : List Any) :
    substSlice W c subs opts es = substSlice W c' subs opts es := by
  unfold substSlice
  rw [ctx_get h, h.counters, h.opts]

theorem title_eq (W : World) {c c' : Walk.Ctx} (h : SameCtx c c') (t : List Any) : substTitle W c t = substTitle W c' t := by
  unfold substTitle
  rw [ctx_get h, h.counters]

theorem paragraph_agree (W : World) {c c' : Walk.Ctx} (hc : SameCtx c c') (opts : List Opt) {a a' : Attrs} (h : Reordered a a')
    (es : List Any) : Agree Both (substParagraph W c opts a es) (substParagraph W c' opts a' es) := by
  unfold substParagraph
  have h1 := attrs_agree W hc opts h
  revert h1
  generalize substAttrs W c opts a = x
  generalize substAttrs W c' opts a' = y
  intro h1
  cases h1 with
  | error => exact .error
  | ok h1 =>
    rename_i b b'
    dsimp only
    rw [getTextD_reordered W h1, subsFor_reordered h1]
    cases subsFor (paragraphOf (getTextD W b' "style")) b' with
    | error b => exact .error
    | ok subs =>
      dsimp only
      rw [slice_eq W hc]
      cases substSlice W c' subs (opts ++ [.entry .normalGroup]) es with
      | error b => exact .error
      | ok q =>
        dsimp only
        rw [hc.opts]
        cases inlineAll W c'.opts (opts ++ [.entry .normalGroup]) subs q.1 with
        | error b => exact .error
        | ok r => exact .ok ⟨.paragraph h1, ⟨hc.api, hc.doc, rfl, rfl⟩⟩

theorem verbatim_agree (W : World) {c c' : Walk.Ctx} (hc : SameCtx c c') (opts : List Opt) {k : Kind} (hk : ¬ C23.Doc.Compound k)
    {a a' : Attrs} (h : Reordered a a') (subs : List Subs.Sub) (es : List Any) :
    Agree Both (substVerbatim W c opts k a subs es) (substVerbatim W c' opts k a' subs es) := by
  unfold substVerbatim
  extract_lets s b b'
  have hb : Reordered b b' := by
    show Reordered (if s.2 = [] then a else _) (if s.2 = [] then a' else _)
    split
    · exact h
    · exact perm_set h _ _
  rw [slice_eq W hc]
  cases substSlice W c' subs (opts ++ [.entry .normalGroup]) s.1 with
  | error b => exact .error
  | ok q => exact .ok ⟨.verbatim hk hb, with_counters hc _⟩

theorem located_agree (W : World) {c c' : Walk.Ctx} (hc : SameCtx c c') (opts : List Opt) (n : Nat) {a a' : Attrs} (h : Reordered a a')
    (l : Option Any) : Agree Both (substLocated W c opts n a l) (substLocated W c' opts n a' l) := by
  unfold substLocated
  have h1 := attrs_agree W hc opts h
  revert h1
  generalize substAttrs W c opts a = x
  generalize substAttrs W c' opts a' = y
  intro h1
  cases h1 with
  | error => exact .error
  | ok h1 =>
    dsimp only
    rw [ctx_get hc, hc.counters]
    cases replaceLocation W c'.get c'.counters l with
    | error b => exact .error
    | ok q => exact .ok ⟨.located h1, with_counters hc _⟩

theorem get_set_same {m m' : AMap Any} (h : ∀ k, AMap.get m k = AMap.get m' k) (n : String) (v : Any) (k : String) :
    AMap.get (AMap.set m n v) k = AMap.get (AMap.set m' n v) k := by
  rw [AMap.get_set, AMap.get_set, h k]

theorem setAll_same : ∀ (a : Attrs) {m m' : AMap Any}, (∀ k, AMap.get m k = AMap.get m' k) → ∀ k,
    AMap.get (AMap.setAll m a) k = AMap.get (AMap.setAll m' a) k
  | [], m, m', h, k => h k
  | (n, v) :: a, m, m', h, k => setAll_same a (m := AMap.set m n v) (m' := AMap.set m' n v) (get_set_same h n v) k

theorem setAll_ctx {c c' : Walk.Ctx} (hc : SameCtx c c') (a : Attrs) : SameCtx (c.setAll a) (c'.setAll a) :=
  ⟨hc.api, setAll_same a hc.doc, hc.counters, hc.opts⟩

theorem declare_agree (W : World) {c c' : Walk.Ctx} (hc : SameCtx c c') (n : String) (v : Any) :
    Agree Both (substDeclare W c n v) (substDeclare W c' n v) := by
  unfold substDeclare
  rw [ctx_get hc]
  cases replaceValue W c'.get v with
  | error b => exact .error
  | ok v' =>
    dsimp only
    refine .ok ⟨.plain rfl, ?_⟩
    split
    · exact ⟨hc.api, get_set_same hc.doc n v', hc.counters, by show c.opts ++ _ = c'.opts ++ _; rw [hc.opts]⟩
    · exact ⟨hc.api, get_set_same hc.doc n v', hc.counters, hc.opts⟩

theorem reset_same {c c' : Walk.Ctx} (hc : SameCtx c c') (n : String) : SameCtx (substReset c n) (substReset c' n) := by
  have hd : ∀ k, AMap.get (AMap.del c.doc n) k = AMap.get (AMap.del c'.doc n) k := by
    intro k; rw [AMap.get_del, AMap.get_del, hc.doc k]
  unfold substReset
  dsimp only
  split
  · exact ⟨hc.api, hd, hc.counters, by show c.opts ++ _ = c'.opts ++ _; rw [hc.opts]⟩
  · exact ⟨hc.api, hd, hc.counters, hc.opts⟩

/-! ### The walk -/

theorem authors_same : ∀ {es es' : List Any}, SameAll es es' → ∀ r, authorsOf es r = authorsOf es' r
  | _, _, .nil, r => rfl
  | _, _, .cons (e := e) (e' := e') h hs, r => by
    have ih := authors_same hs
    cases h with
    | plain hp =>
      unfold authorsOf
      split <;> simp_all [ih]
    | _ => unfold authorsOf; exact ih r

theorem revision_same : ∀ {es es' : List Any}, SameAll es es' → revisionOf es = revisionOf es'
  | _, _, .nil => rfl
  | _, _, .cons (e := e) (e' := e') h hs => by
    have ih := revision_same hs
    cases h with
    | plain hp =>
      unfold revisionOf
      split <;> simp_all
    | _ => unfold revisionOf; exact ih

theorem sameAll_append : ∀ {a a' b b' : List Any}, SameAll a a' → SameAll b b' → SameAll (a ++ b) (a' ++ b')
  | _, _, _, _, .nil, h => h
  | _, _, _, _, .cons h hs, h' => .cons h (sameAll_append hs h')

theorem sameRows_flatten : ∀ {r r' : List (List Any)}, SameRows r r' → SameAll r.flatten r'.flatten
  | _, _, .nil => .nil
  | _, _, .cons h hs => sameAll_append h (sameRows_flatten hs)

theorem sameAll_length : ∀ {a a' : List Any}, SameAll a a' → a.length = a'.length
  | _, _, .nil => rfl
  | _, _, .cons _ hs => by rw [List.length_cons, List.length_cons, sameAll_length hs]

theorem sameRow_getD {r r' : Option (List Any)} (h : SameRow r r') : SameAll (r.getD []) (r'.getD []) := by
  cases h with
  | none => exact .nil
  | some h => exact h

theorem sameRow_isSome {r r' : Option (List Any)} (h : SameRow r r') : r.isSome = r'.isSome := by
  cases h <;> rfl

theorem sameAll_take : ∀ (n : Nat) {a a' : List Any}, SameAll a a' → SameAll (a.take n) (a'.take n)
  | 0, _, _, _ => .nil
  | n + 1, _, _, .nil => .nil
  | n + 1, _, _, .cons h hs => .cons h (sameAll_take n hs)

theorem sameAll_drop : ∀ (n : Nat) {a a' : List Any}, SameAll a a' → SameAll (a.drop n) (a'.drop n)
  | 0, _, _, h => h
  | n + 1, _, _, .nil => .nil
  | n + 1, _, _, .cons _ hs => sameAll_drop n hs

theorem dispatch_same (n : Nat) : ∀ (fuel : Nat) {a a' : List Any}, SameAll a a' →
    SameRows (Table.dispatch n fuel a) (Table.dispatch n fuel a')
  | 0, _, _, _ => .nil
  | _ + 1, _, _, .nil => .nil
  | fuel + 1, _, _, .cons h hs => .cons (sameAll_take n (.cons h hs)) (dispatch_same n fuel (sameAll_drop n (.cons h hs)))

theorem sameRows_last : ∀ {r r' : List (List Any)}, SameRows r r' → SameRow r.getLast? r'.getLast?
  | _, _, .nil => .none
  | _, _, .cons h .nil => .some h
  | _, _, .cons h (.cons h' hs) => by
    rw [List.getLast?_cons_cons, List.getLast?_cons_cons]
    exact sameRows_last (.cons h' hs)

theorem sameRows_init : ∀ {r r' : List (List Any)}, SameRows r r' → SameRows r.dropLast r'.dropLast
  | _, _, .nil => .nil
  | _, _, .cons h .nil => .nil
  | _, _, .cons h (.cons h' hs) => .cons h (sameRows_init (.cons h' hs))

/-- Tables with the same cells. -/
structure SameTable (t t' : Option (List Any) × List (List Any) × Option (List Any)) : Prop where
  header : SameRow t.1 t'.1
  rows : SameRows t.2.1 t'.2.1
  footer : SameRow t.2.2 t'.2.2

theorem organize_same {a a' : Attrs} (ha : Reordered a a') {h h' : Option (List Any)} {rows rows' : List (List Any)}
    {f f' : Option (List Any)} (hh : SameRow h h') (hr : SameRows rows rows') (hf : SameRow f f') :
    Agree SameTable (organize a h rows f) (organize a' h' rows' f') := by
  unfold organize
  rw [get_reordered ha, hasOption_reordered ha, hasOption_reordered ha]
  split
  · rename_i cols hcols
    unfold Table.setColumns
    have hc : SameAll (Table.allCells ⟨h, f, rows⟩) (Table.allCells ⟨h', f', rows'⟩) :=
      sameAll_append (sameAll_append (sameRow_getD hh) (sameRows_flatten hr)) (sameRow_getD hf)
    revert hc
    generalize Table.allCells ⟨h, f, rows⟩ = x
    generalize Table.allCells ⟨h', f', rows'⟩ = y
    intro hc
    generalize Table.size (multipliers cols) = n
    have ho : (Table.organize x n = none ∧ Table.organize y n = none) ∨
        ∃ r r', Table.organize x n = some r ∧ Table.organize y n = some r' ∧ SameRows r r' := by
      unfold Table.organize
      by_cases h0 : n = 0
      · rw [if_pos h0, if_pos h0]; exact .inl ⟨rfl, rfl⟩
      rw [if_neg h0, if_neg h0]
      by_cases h1 : n < 0
      · rw [if_pos h1, if_pos h1]
        cases hc with
        | nil => exact .inr ⟨[], [], rfl, rfl, .nil⟩
        | cons _ _ => exact .inl ⟨rfl, rfl⟩
      · rw [if_neg h1, if_neg h1, sameAll_length hc]
        exact .inr ⟨_, _, rfl, rfl, dispatch_same _ _ hc⟩
    rcases ho with ⟨e1, e2⟩ | ⟨r, r', e1, e2, hrr⟩
    · rw [e1, e2]; exact .error
    rw [e1, e2]
    dsimp only
    rw [sameRow_isSome hh, sameRow_isSome hf]
    unfold Table.restoreHeader
    have tail : ∀ {H H' : Option (List Any)} {R R' : List (List Any)}, SameRow H H' → SameRows R R' →
        Agree SameTable
          (match Table.restoreFooter (f'.isSome || hasOption a' "footer") ⟨H, f, R⟩ with
            | some t => Except.ok (t.header, t.rows, t.footer)
            | none => Except.error Bad.panic)
          (match Table.restoreFooter (f'.isSome || hasOption a' "footer") ⟨H', f', R'⟩ with
            | some t => Except.ok (t.header, t.rows, t.footer)
            | none => Except.error Bad.panic) := by
      intro H H' R R' hH hR
      unfold Table.restoreFooter
      cases (f'.isSome || hasOption a' "footer") with
      | false => exact .ok ⟨hH, hR, hf⟩
      | true =>
        rw [if_pos rfl, if_pos rfl]
        dsimp only
        have hl := sameRows_last hR
        revert hl
        generalize R.getLast? = u
        generalize R'.getLast? = w
        intro hl
        cases hl with
        | none => exact .error
        | some hl => exact .ok ⟨hH, sameRows_init hR, .some hl⟩
    cases (h'.isSome || hasOption a' "header") with
    | false => exact tail hh hrr
    | true =>
      rw [if_pos rfl, if_pos rfl]
      dsimp only
      cases hrr with
      | nil => exact .error
      | cons h1 h2 => exact tail (.some h1) h2
  · exact .ok ⟨hh, hr, hf⟩

theorem section_title (W : World) {a a' : Attrs} (ha : Reordered a a') (n : Nat) (t : List Any) {c c' : Walk.Ctx} (hc : SameCtx c c')
    (cs : AMap CVal) :
    Agree Both
      (match setSectionTitle W a t with
        | .error b => .error b
        | .ok (a, title) => .ok (.section n a title, { c with counters := cs }))
      (match setSectionTitle W a' t with
        | .error b => .error b
        | .ok (a, title) => .ok (.section n a title, { c' with counters := cs })) := by
  unfold setSectionTitle
  cases t.getLast? with
  | none => exact .error
  | some e =>
    cases e with
    | anchor v => exact .ok ⟨.section (perm_set ha _ _), with_counters hc _⟩
    | _ => exact .ok ⟨.section ha, with_counters hc _⟩

/-- The relation between two results for a row that may be absent. -/
def BothRow (r r' : Option (List Any) × Walk.Ctx) : Prop := SameRow r.1 r'.1 ∧ SameCtx r.2 r'.2
/-- The relation between two results for rows. -/
def BothRows (r r' : List (List Any) × Walk.Ctx) : Prop := SameRows r.1 r'.1 ∧ SameCtx r.2 r'.2

mutual
theorem one_agree (W : World) : ∀ {e e' : Any}, Same e e' → ∀ {c c' : Walk.Ctx}, SameCtx c c' → ∀ opts,
    Agree Both (substOne W c opts e) (substOne W c' opts e')
  | e, _, .plain hp, c, c', hc, opts => by
    cases e with
    | declare n v => unfold substOne; exact declare_agree W hc n v
    | reset n => unfold substOne; exact .ok ⟨.plain rfl, reset_same hc n⟩
    | frontMatter _ => cases hp
    | header _ _ _ => cases hp
    | «section» _ _ _ => cases hp
    | continuation _ _ => cases hp
    | labeled _ _ _ _ => cases hp
    | block _ _ _ => cases hp
    | paragraph _ _ => cases hp
    | group _ _ _ => cases hp
    | cell _ _ => cases hp
    | located _ _ _ => cases hp
    | table _ _ _ _ => cases hp
    | _ => unfold substOne; exact .ok ⟨.plain rfl, hc⟩
  | _, _, .front (a := a) (a' := a') ha, c, c', hc, opts => by
    unfold substOne
    refine .ok ⟨.front ha, hc.api, fun k => ?_, hc.counters, hc.opts⟩
    show AMap.get (AMap.setAll c.doc a) k = AMap.get (AMap.setAll c'.doc a') k
    have wf' : AMap.WF a' := by unfold AMap.WF; exact (ha.perm.map _).nodup_iff.1 ha.distinct
    rw [AMap.get_setAll _ ha.distinct, AMap.get_setAll _ wf', get_reordered ha, hc.doc]
  | _, _, .header (a := a) (a' := a') (t := t) (es := es) (es' := es') ha hs, c, c', hc, opts => by
    conv => arg 2; unfold substOne
    conv => arg 3; unfold substOne
    have h1 := all_agree W hs hc opts
    revert h1
    generalize substAll W c opts es = x
    generalize substAll W c' opts es' = y
    intro h1
    cases h1 with
    | error => exact .error
    | ok h1 =>
      rename_i p p'
      obtain ⟨es1, c1⟩ := p
      obtain ⟨es1', c1'⟩ := p'
      obtain ⟨h1, h2⟩ := h1
      dsimp only at h1 h2 ⊢
      rw [authors_same h1, revision_same h1]
      cases authorsOf es1' none with
      | error b => exact .error
      | ok authors =>
        dsimp only
        have main : ∀ {d d' : Walk.Ctx}, SameCtx d d' → Agree Both
            (match substAttrs W d [] a with
              | Except.error b => Except.error b
              | Except.ok a => match substTitle W d t with
                | Except.error b => Except.error b
                | Except.ok (title, cs) => Except.ok (.header a title es1, { d with counters := cs }))
            (match substAttrs W d' [] a' with
              | Except.error b => Except.error b
              | Except.ok a => match substTitle W d' t with
                | Except.error b => Except.error b
                | Except.ok (title, cs) => Except.ok (.header a title es1', { d' with counters := cs })) := by
          intro d d' hd
          have h3 := attrs_agree W hd [] ha
          revert h3
          generalize substAttrs W d [] a = x
          generalize substAttrs W d' [] a' = y
          intro h3
          cases h3 with
          | error => exact .error
          | ok h3 =>
            dsimp only
            rw [title_eq W hd]
            cases substTitle W d' t with
            | error b => exact .error
            | ok q => exact .ok ⟨.header h3 h1, with_counters hd _⟩
        cases authors with
        | none =>
          cases revisionOf es1' with
          | none => exact main h2
          | some r => exact main (setAll_ctx h2 _)
        | some l =>
          cases revisionOf es1' with
          | none => exact main (setAll_ctx h2 _)
          | some r => exact main (setAll_ctx (setAll_ctx h2 _) _)
  | _, _, .section (n := n) (a := a) (a' := a') (t := t) ha, c, c', hc, opts => by
    unfold substOne
    have h3 := attrs_agree W hc [] ha
    revert h3
    generalize substAttrs W c [] a = x
    generalize substAttrs W c' [] a' = y
    intro h3
    cases h3 with
    | error => exact .error
    | ok h3 =>
      dsimp only
      rw [title_eq W hc]
      cases substTitle W c' t with
      | error b => exact .error
      | ok q => exact section_title W h3 n q.1 hc q.2
  | _, _, .continuation (o := o) (e := e) (e' := e') h, c, c', hc, opts => by
    conv => arg 2; unfold substOne
    conv => arg 3; unfold substOne
    have h1 := one_agree W h hc opts
    revert h1
    generalize substOne W c opts e = x
    generalize substOne W c' opts e' = y
    intro h1
    cases h1 with
    | error => exact .error
    | ok h1 => exact .ok ⟨.continuation h1.1, h1.2⟩
  | _, _, .labeled (n := n) (a := a) (a' := a') (t := t) (es := es) (es' := es') ha hs, c, c', hc, opts => by
    conv => arg 2; unfold substOne
    conv => arg 3; unfold substOne
    have h3 := attrs_agree W hc opts ha
    revert h3
    generalize substAttrs W c opts a = x
    generalize substAttrs W c' opts a' = y
    intro h3
    cases h3 with
    | error => exact .error
    | ok h3 =>
      rename_i b b'
      dsimp only
      rw [subsFor_reordered h3]
      cases subsFor .other b' with
      | error b => exact .error
      | ok subs =>
        dsimp only
        rw [slice_eq W hc]
        cases substSlice W c' subs (opts ++ [.entry .normalGroup]) t with
        | error b => exact .error
        | ok q =>
          obtain ⟨t', cs⟩ := q
          dsimp only
          have h1 := all_agree W hs (with_counters hc cs) (opts ++ [.entry .normalGroup])
          revert h1
          generalize substAll W { c with counters := cs } (opts ++ [.entry .normalGroup]) es = x
          generalize substAll W { c' with counters := cs } (opts ++ [.entry .normalGroup]) es' = y
          intro h1
          cases h1 with
          | error => exact .error
          | ok h1 => exact .ok ⟨.labeled h3 h1.1, h1.2⟩
  | _, _, .compound (k := k) (a := a) (a' := a') (es := es) (es' := es') hk ha hs, c, c', hc, opts => by
    conv => arg 2; unfold substOne
    conv => arg 3; unfold substOne
    have h3 := attrs_agree W hc opts ha
    revert h3
    generalize substAttrs W c opts a = x
    generalize substAttrs W c' opts a' = y
    intro h3
    cases h3 with
    | error => exact .error
    | ok h3 =>
      rename_i b b'
      dsimp only
      rw [subsFor_reordered h3]
      cases subsFor (blockOf k) b' with
      | error b => exact .error
      | ok subs =>
        dsimp only
        rw [if_pos (C23.Doc.compound_iff.2 hk), if_pos (C23.Doc.compound_iff.2 hk)]
        have h1 := all_agree W hs hc (opts ++ [.entry .normalGroup])
        revert h1
        generalize substAll W c (opts ++ [.entry .normalGroup]) es = x
        generalize substAll W c' (opts ++ [.entry .normalGroup]) es' = y
        intro h1
        cases h1 with
        | error => exact .error
        | ok h1 => exact .ok ⟨.compound hk h3 h1.1, h1.2⟩
  | _, _, .verbatim (k := k) (a := a) (a' := a') (es := es) hk ha, c, c', hc, opts => by
    conv => arg 2; unfold substOne
    conv => arg 3; unfold substOne
    have h3 := attrs_agree W hc opts ha
    revert h3
    generalize substAttrs W c opts a = x
    generalize substAttrs W c' opts a' = y
    intro h3
    cases h3 with
    | error => exact .error
    | ok h3 =>
      rename_i b b'
      dsimp only
      rw [subsFor_reordered h3]
      cases subsFor (blockOf k) b' with
      | error b => exact .error
      | ok subs =>
        dsimp only
        rw [if_neg (fun h => hk (C23.Doc.compound_iff.1 h)), if_neg (fun h => hk (C23.Doc.compound_iff.1 h))]
        exact verbatim_agree W hc opts hk h3 subs es
  | _, _, .paragraph (es := es) ha, c, c', hc, opts => by
    unfold substOne; exact paragraph_agree W hc opts ha es
  | _, _, .group (n := n) (a := a) (a' := a') (es := es) (es' := es') ha hs, c, c', hc, opts => by
    conv => arg 2; unfold substOne
    conv => arg 3; unfold substOne
    have h3 := attrs_agree W hc opts ha
    revert h3
    generalize substAttrs W c opts a = x
    generalize substAttrs W c' opts a' = y
    intro h3
    cases h3 with
    | error => exact .error
    | ok h3 =>
      rename_i b b'
      dsimp only
      rw [subsFor_reordered h3]
      cases subsFor .other b' with
      | error b => exact .error
      | ok subs =>
        dsimp only
        have h1 := all_agree W hs hc (opts ++ [.entry .normalGroup])
        revert h1
        generalize substAll W c (opts ++ [.entry .normalGroup]) es = x
        generalize substAll W c' (opts ++ [.entry .normalGroup]) es' = y
        intro h1
        cases h1 with
        | error => exact .error
        | ok h1 => exact .ok ⟨.group h3 h1.1, h1.2⟩
  | _, _, .cell (f := f) (es := es) (es' := es') hs, c, c', hc, opts => by
    conv => arg 2; unfold substOne
    conv => arg 3; unfold substOne
    have h1 := all_agree W hs hc (opts ++ [.entry .normalGroup])
    revert h1
    generalize substAll W c (opts ++ [.entry .normalGroup]) es = x
    generalize substAll W c' (opts ++ [.entry .normalGroup]) es' = y
    intro h1
    cases h1 with
    | error => exact .error
    | ok h1 => exact .ok ⟨.cell h1.1, h1.2⟩
  | _, _, .located (n := n) (l := l) ha, c, c', hc, opts => by
    unfold substOne; exact located_agree W hc opts n ha l
  | _, _, .table (a := a) (a' := a') (h := h) (h' := h') (rows := rows) (rows' := rows') (f := f) (f' := f') ha hh hr hf, c, c', hc, opts => by
    conv => arg 2; unfold substOne
    conv => arg 3; unfold substOne
    have h3 := attrs_agree W hc [] ha
    revert h3
    generalize substAttrs W c [] a = x
    generalize substAttrs W c' [] a' = y
    intro h3
    cases h3 with
    | error => exact .error
    | ok h3 =>
      rename_i b b'
      dsimp only
      have h4 := organize_same h3 hh hr hf
      revert h4
      generalize organize b h rows f = x
      generalize organize b' h' rows' f' = y
      intro h4
      cases h4 with
      | error => exact .error
      | ok h4 =>
        rename_i t t'
        dsimp only
        rw [sameAll_length (sameRow_getD h4.header)]
        generalize (t'.1.getD []).length = n
        have h5 := row?_agree W hh hc opts n
        revert h5
        generalize substRow? W c opts n h = x
        generalize substRow? W c' opts n h' = y
        intro h5
        cases h5 with
        | error => exact .error
        | ok h5 =>
          rename_i p p'
          obtain ⟨x1, c1⟩ := p
          obtain ⟨x1', c1'⟩ := p'
          obtain ⟨h5, h5'⟩ := h5
          dsimp only at h5 h5' ⊢
          rw [sameAll_length (sameRow_getD h5)]
          generalize n - (x1'.getD []).length = m
          have h6 := rows_agree W hr h5' opts m
          revert h6
          generalize substRows W c1 opts m rows = x
          generalize substRows W c1' opts m rows' = y
          intro h6
          cases h6 with
          | error => exact .error
          | ok h6 =>
            rename_i p p'
            obtain ⟨x2, c2⟩ := p
            obtain ⟨x2', c2'⟩ := p'
            obtain ⟨h6, h6'⟩ := h6
            dsimp only at h6 h6' ⊢
            rw [sameAll_length (sameRows_flatten h6)]
            generalize m - x2'.flatten.length = i
            have h7 := row?_agree W hf h6' opts i
            revert h7
            generalize substRow? W c2 opts i f = x
            generalize substRow? W c2' opts i f' = y
            intro h7
            cases h7 with
            | error => exact .error
            | ok h7 =>
              rename_i p p'
              obtain ⟨x3, c3⟩ := p
              obtain ⟨x3', c3'⟩ := p'
              obtain ⟨h7, h7'⟩ := h7
              dsimp only at h7 h7' ⊢
              have h8 := organize_same h3 h5 h6 h7
              revert h8
              generalize organize b x1 x2 x3 = x
              generalize organize b' x1' x2' x3' = y
              intro h8
              cases h8 with
              | error => exact .error
              | ok h8 => exact .ok ⟨.table h3 h8.header h8.rows h8.footer, h7'⟩
theorem all_agree (W : World) : ∀ {es es' : List Any}, SameAll es es' → ∀ {c c' : Walk.Ctx}, SameCtx c c' → ∀ opts,
    Agree BothAll (substAll W c opts es) (substAll W c' opts es')
  | _, _, .nil, c, c', hc, opts => by unfold substAll; exact .ok ⟨.nil, hc⟩
  | _, _, .cons (e := e) (e' := e') (es := es) (es' := es') h hs, c, c', hc, opts => by
    conv => arg 2; unfold substAll
    conv => arg 3; unfold substAll
    have h1 := one_agree W h hc opts
    revert h1
    generalize substOne W c opts e = x
    generalize substOne W c' opts e' = y
    intro h1
    cases h1 with
    | error => exact .error
    | ok h1 =>
      rename_i p p'
      obtain ⟨x1, c1⟩ := p
      obtain ⟨x1', c1'⟩ := p'
      obtain ⟨h1, h1'⟩ := h1
      dsimp only at h1 h1' ⊢
      have h2 := all_agree W hs h1' opts
      revert h2
      generalize substAll W c1 opts es = x
      generalize substAll W c1' opts es' = y
      intro h2
      cases h2 with
      | error => exact .error
      | ok h2 => exact .ok ⟨.cons h1 h2.1, h2.2⟩
theorem cell_agree (W : World) : ∀ {e e' : Any}, Same e e' → ∀ {c c' : Walk.Ctx}, SameCtx c c' → ∀ opts head,
    Agree Both (substCell W c opts head e) (substCell W c' opts head e')
  | e, _, .plain hp, c, c', hc, opts, head => by
    cases e with
    | cell _ _ => cases hp
    | _ => unfold substCell; exact .ok ⟨.plain hp, hc⟩
  | _, _, .cell (f := f) (es := es) (es' := es') hs, c, c', hc, opts, head => by
    conv => arg 2; unfold substCell
    conv => arg 3; unfold substCell
    cases head with
    | false =>
      rw [if_neg (by decide), if_neg (by decide)]
      have h1 := all_agree W hs hc (opts ++ [.entry .normalGroup])
      revert h1
      generalize substAll W c (opts ++ [.entry .normalGroup]) es = x
      generalize substAll W c' (opts ++ [.entry .normalGroup]) es' = y
      intro h1
      cases h1 with
      | error => exact .error
      | ok h1 => exact .ok ⟨.cell h1.1, h1.2⟩
    | true =>
      rw [if_pos rfl, if_pos rfl]
      cases hs with
      | nil => exact .ok ⟨.cell .nil, hc⟩
      | cons h1 h2 =>
        cases h2 with
        | cons h2 h3 =>
          split
          · rename_i e; cases e
          split
          · rename_i e; cases e
          exact .ok ⟨.cell (.cons h1 (.cons h2 h3)), hc⟩
        | nil =>
          cases h1 with
          | paragraph ha =>
            dsimp only
            rename_i a a' ps
            have h1 := paragraph_agree W hc opts ha ps
            revert h1
            generalize substParagraph W c opts a ps = x
            generalize substParagraph W c' opts a' ps = y
            intro h1
            cases h1 with
            | error => exact .error
            | ok h1 => exact .ok ⟨.cell (.cons h1.1 .nil), h1.2⟩
          | plain hp =>
            rename_i e
            cases e with
            | paragraph _ _ => cases hp
            | _ => exact .ok ⟨.cell (.cons (.plain hp) .nil), hc⟩
          | front h => exact .ok ⟨.cell (.cons (.front h) .nil), hc⟩
          | header h h' => exact .ok ⟨.cell (.cons (.header h h') .nil), hc⟩
          | «section» h => exact .ok ⟨.cell (.cons (.section h) .nil), hc⟩
          | continuation h => exact .ok ⟨.cell (.cons (.continuation h) .nil), hc⟩
          | labeled h h' => exact .ok ⟨.cell (.cons (.labeled h h') .nil), hc⟩
          | compound h h' h'' => exact .ok ⟨.cell (.cons (.compound h h' h'') .nil), hc⟩
          | verbatim h h' => exact .ok ⟨.cell (.cons (.verbatim h h') .nil), hc⟩
          | group h h' => exact .ok ⟨.cell (.cons (.group h h') .nil), hc⟩
          | cell h => exact .ok ⟨.cell (.cons (.cell h) .nil), hc⟩
          | located h => exact .ok ⟨.cell (.cons (.located h) .nil), hc⟩
          | table h h' h'' h4 => exact .ok ⟨.cell (.cons (.table h h' h'' h4) .nil), hc⟩
  | _, _, .front h, c, c', hc, opts, head => by unfold substCell; exact .ok ⟨.front h, hc⟩
  | _, _, .header h h', c, c', hc, opts, head => by unfold substCell; exact .ok ⟨.header h h', hc⟩
  | _, _, .section h, c, c', hc, opts, head => by unfold substCell; exact .ok ⟨.section h, hc⟩
  | _, _, .continuation h, c, c', hc, opts, head => by unfold substCell; exact .ok ⟨.continuation h, hc⟩
  | _, _, .labeled h h', c, c', hc, opts, head => by unfold substCell; exact .ok ⟨.labeled h h', hc⟩
  | _, _, .compound h h' h'', c, c', hc, opts, head => by unfold substCell; exact .ok ⟨.compound h h' h'', hc⟩
  | _, _, .verbatim h h', c, c', hc, opts, head => by unfold substCell; exact .ok ⟨.verbatim h h', hc⟩
  | _, _, .paragraph h, c, c', hc, opts, head => by unfold substCell; exact .ok ⟨.paragraph h, hc⟩
  | _, _, .group h h', c, c', hc, opts, head => by unfold substCell; exact .ok ⟨.group h h', hc⟩
  | _, _, .located h, c, c', hc, opts, head => by unfold substCell; exact .ok ⟨.located h, hc⟩
  | _, _, .table h h' h'' h4, c, c', hc, opts, head => by unfold substCell; exact .ok ⟨.table h h' h'' h4, hc⟩
theorem row_agree (W : World) : ∀ {es es' : List Any}, SameAll es es' → ∀ {c c' : Walk.Ctx}, SameCtx c c' → ∀ opts n,
    Agree BothAll (substRow W c opts n es) (substRow W c' opts n es')
  | _, _, .nil, c, c', hc, opts, n => by unfold substRow; exact .ok ⟨.nil, hc⟩
  | _, _, .cons (e := e) (e' := e') (es := es) (es' := es') h hs, c, c', hc, opts, n => by
    conv => arg 2; unfold substRow
    conv => arg 3; unfold substRow
    have h1 := cell_agree W h hc opts (decide (0 < n))
    revert h1
    generalize substCell W c opts (decide (0 < n)) e = x
    generalize substCell W c' opts (decide (0 < n)) e' = y
    intro h1
    cases h1 with
    | error => exact .error
    | ok h1 =>
      rename_i p p'
      obtain ⟨x1, c1⟩ := p
      obtain ⟨x1', c1'⟩ := p'
      obtain ⟨h1, h1'⟩ := h1
      dsimp only at h1 h1' ⊢
      have h2 := row_agree W hs h1' opts (n - 1)
      revert h2
      generalize substRow W c1 opts (n - 1) es = x
      generalize substRow W c1' opts (n - 1) es' = y
      intro h2
      cases h2 with
      | error => exact .error
      | ok h2 => exact .ok ⟨.cons h1 h2.1, h2.2⟩
theorem row?_agree (W : World) : ∀ {r r' : Option (List Any)}, SameRow r r' → ∀ {c c' : Walk.Ctx}, SameCtx c c' → ∀ opts n,
    Agree BothRow (substRow? W c opts n r) (substRow? W c' opts n r')
  | _, _, .none, c, c', hc, opts, n => by unfold substRow?; exact .ok ⟨.none, hc⟩
  | _, _, .some (r := r) (r' := r') h, c, c', hc, opts, n => by
    unfold substRow?
    have h1 := row_agree W h hc opts n
    revert h1
    generalize substRow W c opts n r = x
    generalize substRow W c' opts n r' = y
    intro h1
    cases h1 with
    | error => exact .error
    | ok h1 => exact .ok ⟨.some h1.1, h1.2⟩
theorem rows_agree (W : World) : ∀ {rs rs' : List (List Any)}, SameRows rs rs' → ∀ {c c' : Walk.Ctx}, SameCtx c c' → ∀ opts n,
    Agree BothRows (substRows W c opts n rs) (substRows W c' opts n rs')
  | _, _, .nil, c, c', hc, opts, n => by unfold substRows; exact .ok ⟨.nil, hc⟩
  | _, _, .cons (r := r) (r' := r') (rs := rs) (rs' := rs') h hs, c, c', hc, opts, n => by
    conv => arg 2; unfold substRows
    conv => arg 3; unfold substRows
    have h1 := row_agree W h hc opts n
    revert h1
    generalize substRow W c opts n r = x
    generalize substRow W c' opts n r' = y
    intro h1
    cases h1 with
    | error => exact .error
    | ok h1 =>
      rename_i p p'
      obtain ⟨x1, c1⟩ := p
      obtain ⟨x1', c1'⟩ := p'
      obtain ⟨h1, h1'⟩ := h1
      dsimp only at h1 h1' ⊢
      rw [sameAll_length h1]
      have h2 := rows_agree W hs h1' opts (n - x1'.length)
      revert h2
      generalize substRows W c1 opts (n - x1'.length) rs = x
      generalize substRows W c1' opts (n - x1'.length) rs' = y
      intro h2
      cases h2 with
      | error => exact .error
      | ok h2 => exact .ok ⟨.cons h1 h2.1, h2.2⟩
end

/-- C56: in whatever order Go iterates over the attributes given through the API and those of the blocks of a document (at each of
the loops), the stage gives the same document, or the same failure. -/
theorem order_irrelevant (W : World) {api api' : AMap Any} (ha : AMap.WF api) (hp : api.Perm api') {doc doc' : List Any}
    (h : SameAll doc doc') : Agree BothAll (substAll W (newCtx api) [] doc) (substAll W (newCtx api') [] doc') :=
  all_agree W h (c := newCtx api) (c' := newCtx api') ⟨fun k => AMap.get_perm ha hp k, fun _ => rfl, rfl, rfl⟩ []

/-- The two loops over the attributes of a block may each have their own order. -/
theorem loops_order_irrelevant (W : World) (c : Walk.Ctx) (opts : List Opt) {a a' b b' : Attrs} (ha : Reordered a a')
    (h : replaceAttrs W c.get a' = .ok b) (hb : b.Perm b') :
    Agree List.Perm (substAttrs W c opts a) (reparseAttrs W c.opts opts b') := by
  have h1 := attrs_agree W (c := c) (c' := c) ⟨fun _ => rfl, fun _ => rfl, rfl, rfl⟩ opts ha
  have h2 : Agree List.Perm (substAttrs W c opts a) (substAttrs W c opts a') := by
    revert h1
    generalize substAttrs W c opts a = x
    generalize substAttrs W c opts a' = y
    intro h1
    cases h1 with
    | error => exact .error
    | ok h1 => exact .ok h1.perm
  have h3 : substAttrs W c opts a' = reparseAttrs W c.opts opts b := by unfold substAttrs; rw [h]
  rw [h3] at h2
  refine Agree.trans (R := List.Perm) (fun x y z h h' => List.Perm.trans h h') h2 ?_
  rw [reparseAttrs_each, reparseAttrs_each]
  exact each_perm (plain_reparse W _ _) hb

/-! ### What depends on the order -/

/-- A parser that makes a link of a text if macros are enabled. -/
def sampleWorld : World where
  parse s t := if s.entry = .attributeStructuredValue ∧ Subs.Sub.macros ∈ s.subs ∧ t = "https://a".toList then some [.leaf 1] else
    if t = "x".toList then some [.located 0 [("text", .text "T".toList), ("title", .text "https://a".toList)] none] else
    if t = "y".toList then some [.located 0 [("title", .text "https://a".toList), ("text", .text "T".toList)] none] else
    if t = "z".toList then some [.located 0 [("text", .text "T".toList)] none, .located 0 [("title", .text "https://a".toList)] none] else
    some [.str t]
  plainText _ := none
  attribution _ := none
  format _ := []

/-- Finding: the attributes of inline elements are treated in the order of Go's iteration, and the text of a link disables macros
for those that follow: the same link, with a text and a title that is a URL, has two results. The result of a conversion is not
determined. -/
theorem finding_inline_order :
    (substAll sampleWorld (newCtx []) [] [.paragraph [] [.raw "x".toList]]).map Prod.fst =
      .ok [.paragraph [] [.located 0 [("text", .text "T".toList), ("title", .text "https://a".toList)] none]] ∧
    (substAll sampleWorld (newCtx []) [] [.paragraph [] [.raw "y".toList]]).map Prod.fst =
      .ok [.paragraph [] [.located 0 [("title", .slice [.leaf 1]), ("text", .text "T".toList)] none]] := by
  constructor
  · kernel_rfl
  · kernel_rfl

/-- Finding: macros stay disabled for all the inline elements of the paragraph after a link with a text: the title of an image after
such a link is not parsed as it would be before. -/
theorem finding_leak :
    (substAll sampleWorld (newCtx []) [] [.paragraph [] [.raw "z".toList]]).map Prod.fst =
      .ok [.paragraph [] [.located 0 [("text", .text "T".toList)] none, .located 0 [("title", .text "https://a".toList)] none]] := by
  kernel_rfl

/-- The hypotheses of `order_irrelevant` are met, with attributes that are really in another order. -/
example : SameAll [.paragraph [("a", .text []), ("b", .nil)] [.raw "x".toList]] [.paragraph [("b", .nil), ("a", .text [])] [.raw "x".toList]] :=
  .cons (.paragraph ⟨by unfold AMap.WF; decide, .swap _ _ _⟩) .nil

end Verif.C56
