import Verif.Props.MapOrder
import Verif.Props.Table
/-!
C57 — the substitution stage does not crash.
-/
namespace Verif.C57
open Verif.Walk
open Verif.AttrRefs (CVal)
open Verif.C56 (Plain)

/-! ### Specification -/

/-- An element of a title that is not a reference or a counter, and not an empty text: it is still there when references are
replaced. -/
def Solid : Any → Prop
  | .ref _ => False
  | .counter _ _ _ => False
  | e => textOf e ≠ some []

/-- The parser gives something for a text which is not empty. -/
def Speaks (W : World) : Prop := ∀ s t es, s.entry = .normalGroup → t ≠ [] → W.parse s t = some es → es ≠ []

/-- In a header, an e-mail address comes after an author. -/
def EmailAfterAuthor (es : List Any) : Prop :=
  ∀ pre v post, es = pre ++ .declare "email" v :: post →
    (∃ t, .declare "author" (.text t) ∈ pre) ∨ (∃ l, .declare "authors" (.authors l) ∈ pre)

/-- A table may be given the option `k`: by an attribute of that name, or among its options, one of which may be unknown as long as
references are not replaced. -/
def Asks (a : Attrs) (k : String) : Prop :=
  (∃ v, AMap.get a k = some v) ∨
  ∃ l, AMap.get a "options" = some (.options l) ∧ ∃ v ∈ l, v = .text k.toList ∨ ∀ t, v ≠ .text t

/-- A text that the value of an attribute may become: itself, or any if it is not a text yet. -/
def MayBe (v : Any) (t : Text) : Prop := v = .text t ∨ ∀ u, v ≠ .text u

/-- The columns of a table, as the parser understands them, are at least one, and there are enough cells for the header and the
footer. -/
def ColumnsFit (W : World) (a : Attrs) (h : Option (List Any)) (rows : List (List Any)) (f : Option (List Any)) : Prop :=
  ∀ v, AMap.get a "cols" = some v → ∀ t, MayBe v t → ∀ s es, s.entry = .tableColumnsAttribute → W.parse s t = some es →
    ∃ ms : List Int, es = ms.map Any.column ∧ 0 < ms.sum ∧
      let cells := (h.getD []).length + rows.flatten.length + (f.getD []).length
      ((h.isSome = true ∨ Asks a "header") ∨ (f.isSome = true ∨ Asks a "footer") → 0 < cells) ∧
      ((h.isSome = true ∨ Asks a "header") ∧ (f.isSome = true ∨ Asks a "footer") → ms.sum < (cells : Int))

mutual
/-- What must hold of an element for the stage not to crash. -/
inductive Safe (W : World) : Any → Prop
  | header {a t es} : EmailAfterAuthor es → SafeAll W es → Safe W (.header a t es)
  | section {n a t} : (∃ e ∈ t, Solid e) → Safe W (.section n a t)
  | table {a h rows f} : ColumnsFit W a h rows f → SafeRow W h → SafeRows W rows → SafeRow W f → Safe W (.table a h rows f)
  | continuation {o e} : Safe W e → Safe W (.continuation o e)
  | labeled {n a t es} : SafeAll W es → Safe W (.labeled n a t es)
  | block {k a es} : SafeAll W es → Safe W (.block k a es)
  | verbatim {k a es} : ¬ C23.Doc.Compound k → Safe W (.block k a es)
  | group {n a es} : SafeAll W es → Safe W (.group n a es)
  | cell {f es} : SafeAll W es → Safe W (.cell f es)
  | other {e} : (∀ a t es, e ≠ .header a t es) → (∀ n a t, e ≠ .section n a t) → (∀ a h rows f, e ≠ .table a h rows f) →
      (∀ o x, e ≠ .continuation o x) → (∀ n a t es, e ≠ .labeled n a t es) → (∀ k a es, e ≠ .block k a es) →
      (∀ n a es, e ≠ .group n a es) → (∀ f es, e ≠ .cell f es) → Safe W e
/-- The same for sequences. -/
inductive SafeAll (W : World) : List Any → Prop
  | nil : SafeAll W []
  | cons {e es} : Safe W e → SafeAll W es → SafeAll W (e :: es)
/-- The same for a row that may be absent. -/
inductive SafeRow (W : World) : Option (List Any) → Prop
  | none : SafeRow W none
  | some {r} : SafeAll W r → SafeRow W (some r)
/-- The same for rows. -/
inductive SafeRows (W : World) : List (List Any) → Prop
  | nil : SafeRows W []
  | cons {r rs} : SafeAll W r → SafeRows W rs → SafeRows W (r :: rs)
end

/-! ### Proofs -/

theorem plain_path (W : World) (get : String → Option Any) : ∀ (es : List Any) (cs : AMap CVal), Plain (replacePath W get cs es)
  | [], cs => by intro b h; unfold replacePath at h; cases h
  | e :: es, cs => by
    intro b h
    unfold replacePath at h
    split at h
    · cases h
    · rename_i name es' heq
      cases heq
      cases h1 : valueForRef W get name with
      | error b' => rw [h1] at h; cases h; exact C56.plain_value W get name _ h1
      | ok p =>
        rw [h1] at h; dsimp only at h
        cases h2 : replacePath W get cs es with
        | error b' => rw [h2] at h; cases h; exact plain_path W get es cs _ h2
        | ok q => rw [h2] at h; cases h
    · rename_i heq
      cases heq
      dsimp only at h
      revert h
      generalize h2 : replacePath W get _ es = x
      intro h
      cases x with
      | error b' => cases h; exact plain_path W get es _ _ h2
      | ok q => cases h
    · rename_i heq
      cases heq
      cases h2 : replacePath W get cs es with
      | error b' => rw [h2] at h; cases h; exact plain_path W get es cs _ h2
      | ok q => rw [h2] at h; cases h

theorem plain_location (W : World) (get : String → Option Any) (cs : AMap CVal) (l : Option Any) : Plain (replaceLocation W get cs l) := by
  intro b h
  unfold replaceLocation at h
  split at h
  · rename_i es
    cases h1 : replacePath W get cs es with
    | error b' => rw [h1] at h; cases h; exact plain_path W get es cs _ h1
    | ok q => rw [h1] at h; cases h
  · cases h

theorem plain_attrs (W : World) (get : String → Option Any) (a : Attrs) : Plain (replaceAttrs W get a) := by
  rw [C56.replaceAttrs_each]; exact C56.plain_each (fun _ v => C56.plain_replace W get v) a

theorem plain_substAttrs (W : World) (c : Walk.Ctx) (opts : List Opt) (a : Attrs) : Plain (substAttrs W c opts a) := by
  intro b h
  unfold substAttrs at h
  cases h1 : replaceAttrs W c.get a with
  | error b' => rw [h1] at h; cases h; exact plain_attrs W _ a _ h1
  | ok a' =>
    rw [h1] at h
    dsimp only at h
    rw [C56.reparseAttrs_each] at h
    exact C56.plain_each (C56.plain_reparse W _ _) _ _ h

theorem plain_finish (W : World) (p : Option (List Subs.Sub)) (r : Bool) (es : List Any) : Plain (finish W p r es) := by
  intro b h
  unfold finish at h
  split at h
  · split at h
    · exact C56.plain_parse W _ _ _ _ h
    · cases h
  · cases h

mutual
theorem plain_one (W : World) (get : String → Option Any) (p : Option (List Subs.Sub)) : ∀ (e : Any) (cs : AMap CVal),
    Plain (replaceOne W get p cs e)
  | .ref n, cs => by
    intro b h
    unfold replaceOne at h
    cases h1 : valueForRef W get n with
    | error b' => rw [h1] at h; cases h; exact C56.plain_value W get n _ h1
    | ok q => rw [h1] at h; cases h
  | .group n a es, cs => by
    intro b h
    conv at h => lhs; unfold replaceOne
    cases h1 : replaceAttrs W get a with
    | error b' => rw [h1] at h; cases h; exact plain_attrs W get a _ h1
    | ok a' =>
      rw [h1] at h
      dsimp only at h
      cases h2 : replaceLoop W get p cs es with
      | error b' => rw [h2] at h; cases h; exact plain_loop W get p es cs _ h2
      | ok r =>
        rw [h2] at h
        dsimp only at h
        cases h3 : finish W p r.replaced r.els with
        | error b' => rw [h3] at h; cases h; exact plain_finish W _ _ _ _ h3
        | ok q => rw [h3] at h; cases h
  | .located n a l, cs => by
    intro b h
    unfold replaceOne at h
    cases h1 : replaceAttrs W get a with
    | error b' => rw [h1] at h; cases h; exact plain_attrs W get a _ h1
    | ok a' =>
      rw [h1] at h
      dsimp only at h
      cases h2 : replaceLocation W get cs l with
      | error b' => rw [h2] at h; cases h; exact plain_location W get cs l _ h2
      | ok r => rw [h2] at h; cases h
  | .counter _ _ _, cs => by intro b h; unfold replaceOne at h; cases h
  | .slice _, cs | .roles _, cs | .options _, cs
  | .nil, cs | .text _, cs | .plain _, cs | .fullName _ _ _, cs | .str _, cs
  | .raw _, cs | .special _, cs | .dash, cs | .holder _, cs | .anchor _, cs | .column _, cs | .leaf _, cs
  | .closed _ _, cs | .passthrough _, cs | .paragraph _ _, cs | .block _ _ _, cs
  | .labeled _ _ _ _, cs | .continuation _ _, cs | .cell _ _, cs | .table _ _ _ _, cs | .section _ _ _, cs
  | .header _ _ _, cs | .declare _ _, cs | .reset _, cs | .authors _, cs | .revision _ _ _, cs | .frontMatter _, cs => by
    intro b h; unfold replaceOne at h; cases h
theorem plain_loop (W : World) (get : String → Option Any) (p : Option (List Subs.Sub)) : ∀ (es : List Any) (cs : AMap CVal),
    Plain (replaceLoop W get p cs es)
  | [], cs => by intro b h; unfold replaceLoop at h; cases h
  | e :: es, cs => by
    intro b h
    conv at h => lhs; unfold replaceLoop
    cases h1 : replaceOne W get p cs e with
    | error b' => rw [h1] at h; cases h; exact plain_one W get p e cs _ h1
    | ok q =>
      obtain ⟨x, cs', r1⟩ := q
      rw [h1] at h
      dsimp only at h
      cases h2 : replaceLoop W get p cs' es with
      | error b' => rw [h2] at h; cases h; exact plain_loop W get p es cs' _ h2
      | ok r => rw [h2] at h; cases h
end

theorem plain_again (W : World) (get : String → Option Any) (p : Option (List Subs.Sub)) (cs : AMap CVal) (es : List Any) :
    Plain (replaceAndReparse W get p cs es) := by
  intro b h
  unfold replaceAndReparse at h
  cases h1 : replaceLoop W get p cs es with
  | error b' => rw [h1] at h; cases h; exact plain_loop W get p es cs _ h1
  | ok r =>
    rw [h1] at h
    dsimp only at h
    cases h3 : finish W p r.replaced r.els with
    | error b' => rw [h3] at h; cases h; exact plain_finish W _ _ _ _ h3
    | ok q => rw [h3] at h; cases h

theorem plain_slice (W : World) (c : Walk.Ctx) (subs : List Subs.Sub) (opts : List Opt) (es : List Any) :
    Plain (substSlice W c subs opts es) := by
  intro b h
  unfold substSlice at h
  split at h
  · cases h
  cases h1 : parseWith W (.slice es) subs (c.opts ++ opts) with
  | error b' => rw [h1] at h; cases h; exact C56.plain_parse W _ _ _ _ h1
  | ok r =>
    rw [h1] at h
    dsimp only at h
    split at h
    · exact plain_again W _ _ _ _ _ h
    · cases h

theorem plain_inlineAttrs (W : World) (co opts : List Opt) : ∀ (a : Attrs) (subs : List Subs.Sub), Plain (inlineAttrs W co opts subs a)
  | [], subs => by intro b h; unfold inlineAttrs at h; cases h
  | (k, v) :: a, subs => by
    intro b h
    unfold inlineAttrs at h
    split at h
    · revert h
      generalize h1 : parseWith W v subs _ = x
      intro h
      cases x with
      | error b' => cases h; exact C56.plain_parse W _ _ _ _ h1
      | ok r =>
        dsimp only at h
        cases h2 : inlineAttrs W co opts subs a with
        | error b' => rw [h2] at h; cases h; exact plain_inlineAttrs W co opts a subs _ h2
        | ok r => rw [h2] at h; cases h
    split at h
    · revert h
      generalize h1 : parseWith W v _ _ = x
      intro h
      cases x with
      | error b' => cases h; exact C56.plain_parse W _ _ _ _ h1
      | ok r =>
        dsimp only at h
        revert h
        generalize h2 : inlineAttrs W co opts _ a = x
        intro h
        cases x with
        | error b' => cases h; exact plain_inlineAttrs W co opts a _ _ h2
        | ok r => cases h
    · cases h2 : inlineAttrs W co opts subs a with
      | error b' => rw [h2] at h; cases h; exact plain_inlineAttrs W co opts a subs _ h2
      | ok r => rw [h2] at h; cases h

mutual
theorem plain_inlineOne (W : World) (co opts : List Opt) : ∀ (e : Any) (subs : List Subs.Sub), Plain (inlineOne W co opts subs e)
  | .group n a es, subs => by
    intro b h
    conv at h => lhs; unfold inlineOne
    cases h1 : inlineAttrs W co opts subs a with
    | error b' => rw [h1] at h; cases h; exact plain_inlineAttrs W co opts a subs _ h1
    | ok r =>
      rw [h1] at h
      dsimp only at h
      cases h2 : inlineAll W co opts r.subs es with
      | error b' => rw [h2] at h; cases h; exact plain_inlineAll W co opts es _ _ h2
      | ok r => rw [h2] at h; cases h
  | .located n a l, subs => by
    intro b h
    unfold inlineOne at h
    cases h1 : inlineAttrs W co opts subs a with
    | error b' => rw [h1] at h; cases h; exact plain_inlineAttrs W co opts a subs _ h1
    | ok r => rw [h1] at h; cases h
  | .ref _, cs | .counter _ _ _, cs | .slice _, cs | .roles _, cs | .options _, cs
  | .nil, cs | .text _, cs | .plain _, cs | .fullName _ _ _, cs | .str _, cs
  | .raw _, cs | .special _, cs | .dash, cs | .holder _, cs | .anchor _, cs | .column _, cs | .leaf _, cs
  | .closed _ _, cs | .passthrough _, cs | .paragraph _ _, cs | .block _ _ _, cs
  | .labeled _ _ _ _, cs | .continuation _ _, cs | .cell _ _, cs | .table _ _ _ _, cs | .section _ _ _, cs
  | .header _ _ _, cs | .declare _ _, cs | .reset _, cs | .authors _, cs | .revision _ _ _, cs | .frontMatter _, cs => by
    intro b h; unfold inlineOne at h; cases h
theorem plain_inlineAll (W : World) (co opts : List Opt) : ∀ (es : List Any) (subs : List Subs.Sub), Plain (inlineAll W co opts subs es)
  | [], subs => by intro b h; unfold inlineAll at h; cases h
  | e :: es, subs => by
    intro b h
    conv at h => lhs; unfold inlineAll
    cases h1 : inlineOne W co opts subs e with
    | error b' => rw [h1] at h; cases h; exact plain_inlineOne W co opts e subs _ h1
    | ok r =>
      rw [h1] at h
      dsimp only at h
      cases h2 : inlineAll W co opts r.subs es with
      | error b' => rw [h2] at h; cases h; exact plain_inlineAll W co opts es _ _ h2
      | ok r => rw [h2] at h; cases h
end

theorem plain_subsFor (b : Subs.Block) (a : Attrs) : Plain (subsFor b a) := by
  intro x h
  unfold subsFor orError at h
  split at h
  · cases h
  · cases h; rfl

theorem plain_paragraph (W : World) (c : Walk.Ctx) (opts : List Opt) (a : Attrs) (es : List Any) : Plain (substParagraph W c opts a es) := by
  intro b h
  unfold substParagraph at h
  cases h1 : substAttrs W c opts a with
  | error b' => rw [h1] at h; cases h; exact plain_substAttrs W c opts a _ h1
  | ok a' =>
    rw [h1] at h
    dsimp only at h
    cases h2 : subsFor (paragraphOf (getTextD W a' "style")) a' with
    | error b' => rw [h2] at h; cases h; exact plain_subsFor _ _ _ h2
    | ok subs =>
      rw [h2] at h
      dsimp only at h
      cases h3 : substSlice W c subs (opts ++ [.entry .normalGroup]) es with
      | error b' => rw [h3] at h; cases h; exact plain_slice W _ _ _ _ _ h3
      | ok r =>
        rw [h3] at h
        dsimp only at h
        cases h4 : inlineAll W c.opts (opts ++ [.entry .normalGroup]) subs r.1 with
        | error b' => rw [h4] at h; cases h; exact plain_inlineAll W _ _ _ _ _ h4
        | ok r => rw [h4] at h; cases h

theorem plain_verbatim (W : World) (c : Walk.Ctx) (opts : List Opt) (k : Kind) (a : Attrs) (subs : List Subs.Sub) (es : List Any) :
    Plain (substVerbatim W c opts k a subs es) := by
  intro b h
  unfold substVerbatim at h
  extract_lets s a' at h
  cases h3 : substSlice W c subs (opts ++ [.entry .normalGroup]) s.1 with
  | error b' => rw [h3] at h; cases h; exact plain_slice W _ _ _ _ _ h3
  | ok r => rw [h3] at h; cases h

theorem plain_located (W : World) (c : Walk.Ctx) (opts : List Opt) (n : Nat) (a : Attrs) (l : Option Any) :
    Plain (substLocated W c opts n a l) := by
  intro b h
  unfold substLocated at h
  cases h1 : substAttrs W c opts a with
  | error b' => rw [h1] at h; cases h; exact plain_substAttrs W c opts a _ h1
  | ok a' =>
    rw [h1] at h
    dsimp only at h
    cases h2 : replaceLocation W c.get c.counters l with
    | error b' => rw [h2] at h; cases h; exact plain_location W _ _ _ _ h2
    | ok r => rw [h2] at h; cases h

theorem plain_declare (W : World) (c : Walk.Ctx) (name : String) (v : Any) : Plain (substDeclare W c name v) := by
  intro b h
  unfold substDeclare at h
  cases h1 : replaceValue W c.get v with
  | error b' => rw [h1] at h; cases h; exact C56.plain_replace W _ _ _ h1
  | ok a' => rw [h1] at h; cases h

/-! Titles -/

theorem replaceOne_solid (W : World) (get : String → Option Any) (p : Option (List Subs.Sub)) {e e' : Any} {cs cs' : AMap CVal} {r : Bool}
    (he : Solid e) (h : replaceOne W get p cs e = .ok (e', cs', r)) : textOf e' ≠ some [] := by
  cases e with
  | ref _ => exact he.elim
  | counter _ _ _ => exact he.elim
  | group n a es =>
    unfold replaceOne at h
    cases h1 : replaceAttrs W get a with
    | error b' => rw [h1] at h; cases h
    | ok a' =>
      rw [h1] at h
      dsimp only at h
      cases h2 : replaceLoop W get p cs es with
      | error b' => rw [h2] at h; cases h
      | ok r =>
        rw [h2] at h
        dsimp only at h
        cases h3 : finish W p r.replaced r.els with
        | error b' => rw [h3] at h; cases h
        | ok q => rw [h3] at h; cases h; exact he
  | located n a l =>
    unfold replaceOne at h
    cases h1 : replaceAttrs W get a with
    | error b' => rw [h1] at h; cases h
    | ok a' =>
      rw [h1] at h
      dsimp only at h
      cases h2 : replaceLocation W get cs l with
      | error b' => rw [h2] at h; cases h
      | ok r => rw [h2] at h; cases h; exact he
  | _ => unfold replaceOne at h; cases h; exact he

theorem replaceLoop_solid (W : World) (get : String → Option Any) (p : Option (List Subs.Sub)) : ∀ (es : List Any) (cs : AMap CVal)
    (r : Looped), (∃ e ∈ es, Solid e) → replaceLoop W get p cs es = .ok r → ∃ e ∈ r.els, textOf e ≠ some []
  | [], _, _, h, _ => by obtain ⟨e, he, _⟩ := h; cases he
  | e :: es, cs, r, hs, h => by
    unfold replaceLoop at h
    cases h1 : replaceOne W get p cs e with
    | error b' => rw [h1] at h; cases h
    | ok q =>
      obtain ⟨x, cs', r1⟩ := q
      rw [h1] at h
      dsimp only at h
      cases h2 : replaceLoop W get p cs' es with
      | error b' => rw [h2] at h; cases h
      | ok r' =>
        rw [h2] at h
        cases h
        obtain ⟨e0, he0, hs0⟩ := hs
        rcases List.mem_cons.1 he0 with rfl | hm
        · exact ⟨x, List.mem_cons_self .., replaceOne_solid W get p hs0 h1⟩
        · obtain ⟨y, hy, hy'⟩ := replaceLoop_solid W get p es cs' r' ⟨e0, hm, hs0⟩ h2
          exact ⟨y, List.mem_cons_of_mem _ hy, hy'⟩

theorem serialize_solid : ∀ (es : List Any) (n : Nat), (∃ e ∈ es, textOf e ≠ some []) → (serializeLoop n es).1 ≠ []
  | [], _, h => by obtain ⟨e, he, _⟩ := h; cases he
  | e :: es, n, h => by
    unfold serializeLoop
    cases ht : textOf e with
    | none =>
      intro hx
      have := (List.append_eq_nil_iff.1 hx).1
      unfold Placeholders.placeholderText at this
      simp at this
    | some t =>
      intro hx
      have hx : t ++ (serializeLoop n es).1 = [] := hx
      obtain ⟨h1, h2⟩ := List.append_eq_nil_iff.1 hx
      subst h1
      obtain ⟨e0, he0, hs0⟩ := h
      rcases List.mem_cons.1 he0 with rfl | hm
      · exact hs0 ht
      · exact serialize_solid es n ⟨e0, hm, hs0⟩ h2

theorem title_kept (W : World) (hW : Speaks W) (c : Walk.Ctx) {title t : List Any} {cs : AMap CVal} (hs : ∃ e ∈ title, Solid e)
    (h : substTitle W c title = .ok (t, cs)) : t ≠ [] := by
  unfold substTitle replaceAndReparse at h
  revert h
  generalize Subs.split Subs.header = p
  intro h
  cases h1 : replaceLoop W c.get p c.counters title with
  | error b' => rw [h1] at h; cases h
  | ok r =>
    obtain ⟨e, he, hse⟩ := replaceLoop_solid W _ _ _ _ _ hs h1
    rw [h1] at h
    dsimp only at h
    cases h2 : finish W p r.replaced r.els with
    | error b' => rw [h2] at h; cases h
    | ok q =>
      rw [h2] at h
      cases h
      unfold finish at h2
      have hne : r.els ≠ [] := fun hx => by rw [hx] at he; cases he
      split at h2
      · split at h2
        · unfold parseWith serialize at h2
          dsimp only at h2
          rw [if_neg (serialize_solid _ 0 ⟨e, he, hse⟩)] at h2
          split at h2
          · cases h2
          · rename_i es hp
            cases h2
            have : es ≠ [] := hW _ _ _ (by rfl) (serialize_solid _ 0 ⟨e, he, hse⟩) hp
            cases es with
            | nil => exact absurd rfl this
            | cons x xs => unfold restore; exact fun hx => by cases hx
        · cases h2; exact hne
      · cases h2; exact hne

/-! Tables -/

theorem each_get {f : String → Any → Except Bad Any} {k : String} : ∀ (a a' : Attrs), C56.each f a = .ok a' → ∀ v', AMap.get a' k = some v' →
    ∃ v, AMap.get a k = some v ∧ f k v = .ok v'
  | [], a', h, v', hv => by cases h; cases hv
  | (k0, v) :: a, a', h, v', hv => by
    unfold C56.each at h
    cases h1 : f k0 v with
    | error b' => rw [h1] at h; cases h
    | ok w =>
      rw [h1] at h
      dsimp only at h
      cases h2 : C56.each f a with
      | error b' => rw [h2] at h; cases h
      | ok a'' =>
        rw [h2] at h
        cases h
        rw [AMap.get_cons] at hv ⊢
        by_cases hk : k0 = k
        · subst hk
          simp only [if_pos] at hv ⊢
          cases hv
          exact ⟨v, rfl, h1⟩
        · simp only [if_neg hk] at hv ⊢
          exact each_get a a'' h2 v' hv

theorem substAttrs_get (W : World) (c : Walk.Ctx) (opts : List Opt) {a a' : Attrs} (h : substAttrs W c opts a = .ok a') {k : String}
    {v' : Any} (hv : AMap.get a' k = some v') :
    ∃ v w, AMap.get a k = some v ∧ replaceValue W c.get v = .ok w ∧ reparseValue W c.opts opts k w = .ok v' := by
  unfold substAttrs at h
  cases h1 : replaceAttrs W c.get a with
  | error b' => rw [h1] at h; cases h
  | ok b =>
    rw [h1] at h
    dsimp only at h
    rw [C56.reparseAttrs_each] at h
    rw [C56.replaceAttrs_each] at h1
    obtain ⟨w, hw, hw'⟩ := each_get _ _ h _ hv
    obtain ⟨v, h3, h4⟩ := each_get _ _ h1 _ hw
    exact ⟨v, w, h3, h4, hw'⟩

theorem reduce_cases (es : List Any) : reduce es = .nil ∨ (∃ t, reduce es = .text t) ∨ ∃ l, reduce es = .slice l := by
  unfold reduce
  split
  · exact .inl rfl
  · exact .inr (.inl ⟨_, rfl⟩)
  · exact .inr (.inr ⟨_, rfl⟩)

theorem replaceValues_mem (W : World) (get : String → Option Any) : ∀ (l l' : List Any), replaceValues W get l = .ok l' → ∀ v' ∈ l',
    ∃ v ∈ l, replaceValue W get v = .ok v'
  | [], l', h, v', hv => by unfold replaceValues at h; cases h; cases hv
  | v :: l, l', h, v', hv => by
    unfold replaceValues at h
    cases h1 : replaceValue W get v with
    | error b' => rw [h1] at h; cases h
    | ok w =>
      rw [h1] at h
      dsimp only at h
      cases h2 : replaceValues W get l with
      | error b' => rw [h2] at h; cases h
      | ok l'' =>
        rw [h2] at h
        cases h
        rcases List.mem_cons.1 hv with rfl | hm
        · exact ⟨v, List.mem_cons_self .., h1⟩
        · obtain ⟨x, hx, hx'⟩ := replaceValues_mem W get l l'' h2 v' hm
          exact ⟨x, List.mem_cons_of_mem _ hx, hx'⟩

theorem replaceValue_options (W : World) (get : String → Option Any) {v : Any} {l' : List Any} (h : replaceValue W get v = .ok (.options l')) :
    ∃ l, v = .options l ∧ replaceValues W get l = .ok l' := by
  cases v with
  | options l =>
    unfold replaceValue at h
    cases h1 : replaceValues W get l with
    | error b' => rw [h1] at h; cases h
    | ok x => rw [h1] at h; cases h; exact ⟨l, rfl, h1⟩
  | roles l =>
    unfold replaceValue at h
    cases h1 : replaceValues W get l with
    | error b' => rw [h1] at h; cases h
    | ok x => rw [h1] at h; cases h
  | slice es =>
    unfold replaceValue slicedValue at h
    cases h1 : slicedItems W get es with
    | error b' => rw [h1] at h; cases h
    | ok x =>
      rw [h1] at h
      have h : reduce x = .options l' := Except.ok.inj h
      rcases reduce_cases x with e | ⟨t, e⟩ | ⟨t, e⟩ <;> rw [e] at h <;> cases h
  | _ => unfold replaceValue at h; cases h

theorem replaceValue_text (W : World) (get : String → Option Any) {v : Any} {t : Text} (h : replaceValue W get v = .ok (.text t)) :
    v = .text t ∨ ∀ u, v ≠ .text u := by
  cases v with
  | text u => unfold replaceValue at h; cases h; exact .inl rfl
  | _ => exact .inr (fun u hu => by cases hu)

theorem asks_after (W : World) (c : Walk.Ctx) {a a' : Attrs} (h : substAttrs W c [] a = .ok a') {k : String}
    (hk : hasOption a' k = true) : Asks a k := by
  unfold hasOption at hk
  rcases Bool.or_eq_true_iff.1 hk with hk | hk
  · refine .inr ?_
    split at hk
    · rename_i l' hl'
      obtain ⟨v, w, h1, h2, h3⟩ := substAttrs_get W c [] h hl'
      unfold reparseValue at h3
      rw [if_neg (by decide), if_neg (by decide), if_neg (by decide)] at h3
      cases h3
      obtain ⟨l, rfl, h4⟩ := replaceValue_options W c.get h2
      refine ⟨l, h1, ?_⟩
      obtain ⟨x, hx, hx'⟩ := List.any_eq_true.1 hk
      obtain ⟨y, hy, hy'⟩ := replaceValues_mem W _ _ _ h4 x hx
      refine ⟨y, hy, ?_⟩
      cases x with
      | text t =>
        have : t = k.toList := by simpa using hx'
        subst this
        exact replaceValue_text W c.get hy'
      | _ => cases hx'
    · cases hk
  · refine .inl ?_
    obtain ⟨v', hv'⟩ := Option.isSome_iff_exists.1 hk
    obtain ⟨v, w, h1, _⟩ := substAttrs_get W c [] h hv'
    exact ⟨v, h1⟩

theorem columns_flat : ∀ (ms : List Int) (r : List Any), mergeLoop r [] (ms.map Any.column) = r ++ ms.map Any.column
  | [], r => by show r ++ flush [] = _; rfl
  | m :: ms, r => by
    show mergeLoop (r ++ flush [] ++ [Any.column m]) [] (ms.map Any.column) = _
    rw [columns_flat ms]
    simp [flush]

theorem columns_inners : ∀ (ms : List Int), inners (ms.map Any.column) = ms.map Any.column
  | [] => rfl
  | m :: ms => by
    show inners (Any.column m :: ms.map Any.column) = _
    unfold inners inner
    rw [columns_inners ms]; rfl

theorem columns_restore (st : List (Text × Any)) : ∀ (ms : List Int), restore st (ms.map Any.column) = ms.map Any.column
  | [] => by unfold restore; rfl
  | m :: ms => by
    show restore st (Any.column m :: ms.map Any.column) = _
    unfold restore restoreOne
    rw [columns_restore st ms]; rfl

theorem columns_multipliers : ∀ (ms : List Int), multipliers (ms.map Any.column) = ms
  | [] => rfl
  | m :: ms => by
    show multipliers (Any.column m :: ms.map Any.column) = _
    unfold multipliers
    rw [columns_multipliers ms]

/-- The columns of a table after its attributes are substituted. -/
theorem columns_after (W : World) (c : Walk.Ctx) {a a' : Attrs} (h : substAttrs W c [] a = .ok a') {cols : List Any}
    (hc : AMap.get a' "cols" = some (.slice cols)) :
    ∃ v t s es, AMap.get a "cols" = some v ∧ MayBe v t ∧ s.entry = .tableColumnsAttribute ∧ W.parse s t = some es ∧
      reduce (restore [] es) = .slice cols := by
  obtain ⟨v, w, h1, h2, h3⟩ := substAttrs_get W c [] h hc
  unfold reparseValue at h3
  rw [if_neg (by decide), if_neg (by decide), if_pos rfl] at h3
  cases ht : plainSerialized w with
  | none => rw [ht] at h3; cases h3
  | some t =>
    rw [ht] at h3
    dsimp only at h3
    unfold parseWith serialize at h3
    dsimp only at h3
    by_cases h0 : t = []
    · rw [if_pos h0] at h3; cases h3
    rw [if_neg h0] at h3
    revert h3
    generalize hp : W.parse _ t = x
    intro h3
    cases x with
    | none => cases h3
    | some es =>
      have h3 : reduce (restore [] es) = .slice cols := Except.ok.inj h3
      refine ⟨v, t, _, es, h1, ?_, ?_, hp, h3⟩
      · cases v with
        | text u =>
          unfold replaceValue at h2
          cases h2
          left
          unfold plainSerialized at ht
          cases ht; rfl
        | _ => exact .inr (fun u hu => by cases hu)
      · unfold settle
        simp only [List.foldl_append, List.foldl_cons, List.foldl_nil, Opt.apply]

theorem setColumns_fits {hdr ftr : Bool} {ms : List Int} {t : Table.Table Any} (hpos : 0 < ms.sum)
    (h1 : (t.header.isSome || hdr) = true ∨ (t.footer.isSome || ftr) = true → 0 < (Table.allCells t).length)
    (h2 : (t.header.isSome || hdr) = true ∧ (t.footer.isSome || ftr) = true → ms.sum < ((Table.allCells t).length : Int)) :
    Table.setColumns hdr ftr ms t ≠ none := by
  intro hn
  rw [C26.setColumns_none, C26.size_sum] at hn
  have hs : Table.organize (Table.allCells t) ms.sum = some (Table.dispatch ms.sum.toNat (Table.allCells t).length (Table.allCells t)) := by
    have := C26.organize_pos (Table.allCells t) ms.sum.toNat (by omega)
    rwa [Int.toNat_of_nonneg (by omega)] at this
  rw [hs] at hn
  have hfl := C26.dispatch_flatten ms.sum.toNat (by omega) (Table.allCells t).length (Table.allCells t) (Nat.le_refl _)
  have hfull := C26.dispatch_full ms.sum.toNat (by omega) (Table.allCells t).length (Table.allCells t) (Nat.le_refl _)
  have hne : (t.header.isSome || hdr) = true ∨ (t.footer.isSome || ftr) = true →
      Table.dispatch ms.sum.toNat (Table.allCells t).length (Table.allCells t) ≠ [] := by
    intro hx he
    rw [he] at hfl
    have := h1 hx
    rw [← hfl] at this
    simp at this
  rcases hn with hn | ⟨rows, hr, hn⟩
  · cases hn
  · cases hr
    rcases hn with ⟨ha, hb⟩ | ⟨ha, hb⟩
    · exact hne (.inl ha) hb
    · rcases hb with hb | ⟨hb, hl⟩
      · exact hne (.inr ha) hb
      · have h3 := h2 ⟨hb, ha⟩
        revert hfl hfull hl h3
        generalize Table.dispatch ms.sum.toNat (Table.allCells t).length (Table.allCells t) = rows
        intro hfl hfull hl h3
        rw [← hfl] at h3
        have := C26.full_le _ _ hfull
        cases rows with
        | nil => simp at h3; omega
        | cons r rs =>
          cases rs with
          | nil =>
            have := this r (by simp)
            simp at h3
            omega
          | cons _ _ => simp at hl

theorem organize_safe (W : World) (c : Walk.Ctx) {a a' : Attrs} (h : substAttrs W c [] a = .ok a') {hd hd' : Option (List Any)}
    {rows rows' : List (List Any)} {f f' : Option (List Any)} (hf : ColumnsFit W a hd rows f) (e1 : hd'.isSome = hd.isSome)
    (e2 : f'.isSome = f.isSome) (e3 : (hd'.getD []).length = (hd.getD []).length) (e4 : rows'.flatten.length = rows.flatten.length)
    (e5 : (f'.getD []).length = (f.getD []).length) : Plain (organize a' hd' rows' f') := by
  intro b hb
  unfold organize at hb
  split at hb
  · rename_i cols hc
    obtain ⟨v, t, s, es, h1, h2, h3, h4, h5⟩ := columns_after W c h hc
    obtain ⟨ms, rfl, hpos, hx, hy⟩ := hf v h1 t h2 s es h3 h4
    rw [columns_restore] at h5
    have hm : multipliers cols = ms := by
      unfold reduce merge at h5
      rw [columns_inners, columns_flat, List.nil_append] at h5
      cases ms with
      | nil => cases h5
      | cons m ms =>
        have : cols = (m :: ms).map Any.column := by
          cases h5; rfl
        rw [this, columns_multipliers]
    rw [hm] at hb
    have hlen : (Table.allCells (⟨hd', f', rows'⟩ : Table.Table Any)).length = (hd.getD []).length + rows.flatten.length + (f.getD []).length := by
      show ((hd'.getD []) ++ rows'.flatten ++ (f'.getD [])).length = _
      rw [List.length_append, List.length_append, e3, e4, e5]
    have o1 : (hd'.isSome || hasOption a' "header") = true → hd.isSome = true ∨ Asks a "header" := by
      intro hx
      rcases Bool.or_eq_true_iff.1 hx with hx | hx
      · rw [e1] at hx; exact .inl hx
      · exact .inr (asks_after W c h hx)
    have o2 : (f'.isSome || hasOption a' "footer") = true → f.isSome = true ∨ Asks a "footer" := by
      intro hx
      rcases Bool.or_eq_true_iff.1 hx with hx | hx
      · rw [e2] at hx; exact .inl hx
      · exact .inr (asks_after W c h hx)
    have := setColumns_fits (hdr := hasOption a' "header") (ftr := hasOption a' "footer") (t := ⟨hd', f', rows'⟩) hpos
      (fun h => by rw [hlen]; exact hx (h.imp o1 o2)) (fun h => by rw [hlen]; exact hy ⟨o1 h.1, o2 h.2⟩)
    revert hb this
    cases Table.setColumns (hasOption a' "header") (hasOption a' "footer") ms ⟨hd', f', rows'⟩ with
    | none => intro _ hx; exact absurd rfl hx
    | some t => intro hb; cases hb
  · cases hb

/-! Headers -/

/-- What a header says about the author does not change: the values of declarations that are texts or authors stay. -/
inductive Kept : List Any → List Any → Prop
  | nil : Kept [] []
  | declare {n v v' es es'} : (∀ t, v = .text t → v' = .text t) → (∀ l, v = .authors l → v' = .authors l) → Kept es es' →
      Kept (.declare n v :: es) (.declare n v' :: es')
  | other {e e' es es'} : (∀ n v, e ≠ .declare n v) → (∀ n v, e' ≠ .declare n v) → Kept es es' → Kept (e :: es) (e' :: es')

theorem email_kept {es es' : List Any} (hk : Kept es es') (h : EmailAfterAuthor es) : EmailAfterAuthor es' := by
  have key : ∀ {es es' : List Any}, Kept es es' → ∀ pre' v' post', es' = pre' ++ .declare "email" v' :: post' →
      ∃ pre v post, es = pre ++ .declare "email" v :: post ∧ Kept pre pre' := by
    intro es es' hk
    induction hk with
    | nil => intro pre' v' post' he; cases pre' <;> cases he
    | @declare n v w es es' h1 h2 hk ih =>
      intro pre' v' post' he
      cases pre' with
      | nil => cases he; exact ⟨[], v, es, rfl, .nil⟩
      | cons x xs =>
        cases he
        obtain ⟨pre, u, post, rfl, hp⟩ := ih xs v' post' rfl
        exact ⟨_ :: pre, u, post, rfl, .declare h1 h2 hp⟩
    | @other e e' es es' h1 h2 hk ih =>
      intro pre' v' post' he
      cases pre' with
      | nil => cases he; exact absurd rfl (h2 _ _)
      | cons x xs =>
        cases he
        obtain ⟨pre, u, post, rfl, hp⟩ := ih xs v' post' rfl
        exact ⟨_ :: pre, u, post, rfl, .other h1 h2 hp⟩
  have mem : ∀ {es es' : List Any}, Kept es es' → ∀ n v, .declare n v ∈ es → ((∃ t, v = .text t) ∨ ∃ l, v = .authors l) → .declare n v ∈ es' := by
    intro es es' hk
    induction hk with
    | nil => intro n v hm; cases hm
    | declare h1 h2 hk ih =>
      intro n v hm hv
      rcases List.mem_cons.1 hm with he | hm
      · cases he
        rcases hv with ⟨t, rfl⟩ | ⟨l, rfl⟩
        · rw [h1 t rfl]; exact List.mem_cons_self ..
        · rw [h2 l rfl]; exact List.mem_cons_self ..
      · exact List.mem_cons_of_mem _ (ih n v hm hv)
    | other h1 h2 hk ih =>
      intro n v hm hv
      rcases List.mem_cons.1 hm with he | hm
      · exact absurd he.symm (h1 n v)
      · exact List.mem_cons_of_mem _ (ih n v hm hv)
  intro pre' v' post' he
  obtain ⟨pre, v, post, he', hp⟩ := key hk pre' v' post' he
  rcases h pre v post he' with ⟨t, ht⟩ | ⟨l, hl⟩
  · exact .inl ⟨t, mem hp _ _ ht (.inl ⟨t, rfl⟩)⟩
  · exact .inr ⟨l, mem hp _ _ hl (.inr ⟨l, rfl⟩)⟩

theorem authors_named : ∀ (es : List Any) (f e : Text), Plain (authorsOf es (some (true, f, e)))
  | [], f, e => by intro b h; unfold authorsOf at h; cases h
  | x :: es, f, e => by
    intro b h
    unfold authorsOf at h
    split at h
    · rename_i h1 h2; cases h1
    · rename_i h1 h2; cases h1
    · cases h
    · rename_i h1 h2; cases h2
    · rename_i h1 h2; cases h1; cases h2; exact authors_named _ _ _ _ h
    · rename_i h1 h2; cases h2
    · rename_i h1 h2; cases h1; cases h2; exact authors_named _ _ _ _ h
    · rename_i h1 _ _ _ _; cases h1; exact authors_named _ _ _ _ h

theorem authors_plain : ∀ (es : List Any), EmailAfterAuthor es → Plain (authorsOf es none)
  | [], _ => by intro b h; unfold authorsOf at h; cases h
  | x :: es, hs => by
    intro b h
    unfold authorsOf at h
    split at h
    · rename_i h1 h2; cases h1
    · rename_i h1 h2; cases h1
    · cases h
    · rename_i h1 h2
      cases h1
      rcases hs [] _ es rfl with ⟨t, ht⟩ | ⟨t, ht⟩ <;> cases ht
    · rename_i h1 h2; cases h2
    · rename_i h1 h2; cases h1; exact authors_named _ _ _ _ h
    · rename_i h1 h2; cases h2
    · rename_i hn1 h1 hn3 hn4 hn5 hn6
      cases h1
      refine authors_plain _ ?_ _ h
      intro pre v post he
      rcases hs (x :: pre) v post (by rw [he]; rfl) with ⟨t, ht⟩ | ⟨l, hl⟩
      · rcases List.mem_cons.1 ht with hx | ht
        · exact (hn5 _ rfl hx.symm).elim
        · exact .inl ⟨t, ht⟩
      · rcases List.mem_cons.1 hl with hx | hl
        · exact (hn1 _ hx.symm).elim
        · exact .inr ⟨l, hl⟩

theorem not_declare (W : World) (c : Walk.Ctx) (opts : List Opt) {e e' : Any} {c' : Walk.Ctx} (h : substOne W c opts e = .ok (e', c'))
    (he : ∀ n v, e ≠ .declare n v) (n : String) (v : Any) : e' ≠ .declare n v := by
  intro hx
  subst hx
  cases e with
  | declare n v => exact he n v rfl
  | paragraph a es =>
    unfold substOne substParagraph at h
    (repeat' split at h) <;> cases h
  | block k a es =>
    unfold substOne substVerbatim at h
    dsimp only at h
    split at h
    · cases h
    split at h
    · cases h
    split at h
    · split at h <;> cases h
    · revert h
      generalize substSlice W c _ _ _ = x
      intro h
      cases x <;> cases h
  | located n a l =>
    unfold substOne substLocated at h
    (repeat' split at h) <;> cases h
  | header a t es =>
    unfold substOne at h
    cases h1 : substAll W c opts es with
    | error b => rw [h1] at h; cases h
    | ok p =>
      rw [h1] at h
      dsimp only at h
      cases h2 : authorsOf p.1 none with
      | error b => rw [h2] at h; cases h
      | ok l =>
        rw [h2] at h
        dsimp only at h
        revert h
        generalize substAttrs W _ [] a = x
        intro h
        cases x with
        | error b => cases h
        | ok a' =>
          dsimp only at h
          revert h
          generalize substTitle W _ t = x
          intro h
          cases x <;> cases h
  | table a hd rows f =>
    unfold substOne at h
    dsimp only at h
    (repeat' split at h) <;> cases h
  | _ =>
    unfold substOne at h
    first
      | cases h
      | ((repeat' split at h) <;> cases h)

theorem all_kept (W : World) : ∀ (es : List Any) (c : Walk.Ctx) (opts : List Opt) (es' : List Any) (c' : Walk.Ctx),
    substAll W c opts es = .ok (es', c') → Kept es es'
  | [], c, opts, es', c', h => by unfold substAll at h; cases h; exact .nil
  | e :: es, c, opts, es', c', h => by
    unfold substAll at h
    cases h1 : substOne W c opts e with
    | error b => rw [h1] at h; cases h
    | ok p =>
      obtain ⟨e1, c1⟩ := p
      rw [h1] at h
      dsimp only at h
      cases h2 : substAll W c1 opts es with
      | error b => rw [h2] at h; cases h
      | ok q =>
        obtain ⟨es2, c2⟩ := q
        rw [h2] at h
        cases h
        have ih := all_kept W es c1 opts es2 c' h2
        by_cases he : ∃ n v, e = .declare n v
        · obtain ⟨n, v, rfl⟩ := he
          unfold substOne substDeclare at h1
          cases h3 : replaceValue W c.get v with
          | error b => rw [h3] at h1; cases h1
          | ok v' =>
            rw [h3] at h1
            cases h1
            refine .declare ?_ ?_ ih
            · intro t ht; subst ht; unfold replaceValue at h3; cases h3; rfl
            · intro t ht; subst ht; unfold replaceValue at h3; cases h3; rfl
        · have hn : ∀ n v, e ≠ .declare n v := fun n v hx => he ⟨n, v, hx⟩
          exact .other hn (not_declare W c opts h1 hn) ih

theorem row_length (W : World) (opts : List Opt) : ∀ (es : List Any) (c : Walk.Ctx) (n : Nat) (es' : List Any) (c' : Walk.Ctx),
    substRow W c opts n es = .ok (es', c') → es'.length = es.length
  | [], c, n, es', c', h => by unfold substRow at h; cases h; rfl
  | e :: es, c, n, es', c', h => by
    unfold substRow at h
    cases h1 : substCell W c opts (decide (0 < n)) e with
    | error b => rw [h1] at h; cases h
    | ok p =>
      rw [h1] at h
      dsimp only at h
      cases h2 : substRow W p.2 opts (n - 1) es with
      | error b => rw [h2] at h; cases h
      | ok q =>
        rw [h2] at h
        cases h
        rw [List.length_cons, List.length_cons, row_length W opts es p.2 (n - 1) q.1 q.2 h2]

theorem row?_length (W : World) (opts : List Opt) (r : Option (List Any)) (c : Walk.Ctx) (n : Nat) (r' : Option (List Any))
    (c' : Walk.Ctx) (h : substRow? W c opts n r = .ok (r', c')) : r'.isSome = r.isSome ∧ (r'.getD []).length = (r.getD []).length := by
  cases r with
  | none => unfold substRow? at h; cases h; exact ⟨rfl, rfl⟩
  | some r =>
    unfold substRow? at h
    cases h1 : substRow W c opts n r with
    | error b => rw [h1] at h; cases h
    | ok p => rw [h1] at h; cases h; exact ⟨rfl, row_length W opts _ _ _ _ _ h1⟩

theorem rows_length (W : World) (opts : List Opt) : ∀ (rs : List (List Any)) (c : Walk.Ctx) (n : Nat) (rs' : List (List Any)) (c' : Walk.Ctx),
    substRows W c opts n rs = .ok (rs', c') → rs'.flatten.length = rs.flatten.length
  | [], c, n, es', c', h => by unfold substRows at h; cases h; rfl
  | r :: rs, c, n, es', c', h => by
    unfold substRows at h
    cases h1 : substRow W c opts n r with
    | error b => rw [h1] at h; cases h
    | ok p =>
      rw [h1] at h
      dsimp only at h
      cases h2 : substRows W p.2 opts (n - p.1.length) rs with
      | error b => rw [h2] at h; cases h
      | ok q =>
        rw [h2] at h
        cases h
        rw [List.flatten_cons, List.flatten_cons, List.length_append, List.length_append, row_length W opts _ _ _ _ _ h1,
          rows_length W opts rs _ _ _ _ h2]

/-! The walk -/

mutual
theorem one_plain (W : World) (hW : Speaks W) : ∀ {e : Any}, Safe W e → ∀ (c : Walk.Ctx) (opts : List Opt), Plain (substOne W c opts e)
  | _, .header (a := a) (t := t) (es := es) hm hs, c, opts => by
    intro b h
    conv at h => lhs; unfold substOne
    cases h1 : substAll W c opts es with
    | error b' => rw [h1] at h; cases h; exact all_plain W hW hs c opts _ h1
    | ok p =>
      obtain ⟨es', c1⟩ := p
      rw [h1] at h
      dsimp only at h
      cases h2 : authorsOf es' none with
      | error b' => rw [h2] at h; cases h; exact authors_plain _ (email_kept (all_kept W _ _ _ _ _ h1) hm) _ h2
      | ok l =>
        rw [h2] at h
        dsimp only at h
        revert h
        generalize h3 : substAttrs W _ [] a = x
        intro h
        cases x with
        | error b' => cases h; exact plain_substAttrs W _ _ _ _ h3
        | ok a' =>
          dsimp only at h
          revert h
          generalize h4 : substTitle W _ t = x
          intro h
          cases x with
          | error b' => cases h; exact plain_again W _ _ _ _ _ h4
          | ok q => cases h
  | _, .section (n := n) (a := a) (t := t) hs, c, opts => by
    intro b h
    unfold substOne at h
    cases h1 : substAttrs W c [] a with
    | error b' => rw [h1] at h; cases h; exact plain_substAttrs W _ _ _ _ h1
    | ok a' =>
      rw [h1] at h
      dsimp only at h
      cases h2 : substTitle W c t with
      | error b' => rw [h2] at h; cases h; exact plain_again W _ _ _ _ _ h2
      | ok q =>
        obtain ⟨t', cs⟩ := q
        rw [h2] at h
        dsimp only at h
        have hne := title_kept W hW c hs h2
        unfold setSectionTitle at h
        rw [List.getLast?_eq_some_getLast hne] at h
        revert h
        cases t'.getLast hne <;> intro h <;> cases h
  | _, .table (a := a) (h := hd) (rows := rows) (f := f) hc hh hr hf, c, opts => by
    intro b h
    conv at h => lhs; unfold substOne
    cases h1 : substAttrs W c [] a with
    | error b' => rw [h1] at h; cases h; exact plain_substAttrs W _ _ _ _ h1
    | ok a' =>
      rw [h1] at h
      dsimp only at h
      cases h2 : organize a' hd rows f with
      | error b' => rw [h2] at h; cases h; exact organize_safe W c h1 hc rfl rfl rfl rfl rfl _ h2
      | ok t =>
        rw [h2] at h
        dsimp only at h
        revert h
        generalize (t.1.getD []).length = n
        intro h
        cases h3 : substRow? W c opts n hd with
        | error b' => rw [h3] at h; cases h; exact row?_plain W hW hh _ _ _ _ h3
        | ok p =>
          obtain ⟨hd', c1⟩ := p
          rw [h3] at h
          dsimp only at h
          revert h
          generalize h4 : substRows W c1 opts _ rows = x
          intro h
          cases x with
          | error b' => cases h; exact rows_plain W hW hr _ _ _ _ h4
          | ok p =>
            obtain ⟨rows', c2⟩ := p
            dsimp only at h
            revert h
            generalize h5 : substRow? W c2 opts _ f = x
            intro h
            cases x with
            | error b' => cases h; exact row?_plain W hW hf _ _ _ _ h5
            | ok p =>
              obtain ⟨f', c3⟩ := p
              dsimp only at h
              obtain ⟨e1, e2⟩ := row?_length W _ _ _ _ _ _ h3
              obtain ⟨e3, e4⟩ := row?_length W _ _ _ _ _ _ h5
              cases h6 : organize a' hd' rows' f' with
              | error b' =>
                rw [h6] at h; cases h
                exact organize_safe W c h1 hc e1 e3 e2 (rows_length W _ _ _ _ _ _ h4) e4 _ h6
              | ok t => rw [h6] at h; cases h
  | _, .continuation (o := o) (e := e) hs, c, opts => by
    intro b h
    conv at h => lhs; unfold substOne
    cases h1 : substOne W c opts e with
    | error b' => rw [h1] at h; cases h; exact one_plain W hW hs c opts _ h1
    | ok p => rw [h1] at h; cases h
  | _, .labeled (n := n) (a := a) (t := t) (es := es) hs, c, opts => by
    intro b h
    conv at h => lhs; unfold substOne
    cases h1 : substAttrs W c opts a with
    | error b' => rw [h1] at h; cases h; exact plain_substAttrs W _ _ _ _ h1
    | ok a' =>
      rw [h1] at h
      dsimp only at h
      cases h2 : subsFor .other a' with
      | error b' => rw [h2] at h; cases h; exact plain_subsFor _ _ _ h2
      | ok subs =>
        rw [h2] at h
        dsimp only at h
        cases h3 : substSlice W c subs (opts ++ [.entry .normalGroup]) t with
        | error b' => rw [h3] at h; cases h; exact plain_slice W _ _ _ _ _ h3
        | ok q =>
          rw [h3] at h
          dsimp only at h
          revert h
          generalize h4 : substAll W _ _ es = x
          intro h
          cases x with
          | error b' => cases h; exact all_plain W hW hs _ _ _ h4
          | ok q => cases h
  | _, .block (k := k) (a := a) (es := es) hs, c, opts => by
    intro b h
    conv at h => lhs; unfold substOne
    cases h1 : substAttrs W c opts a with
    | error b' => rw [h1] at h; cases h; exact plain_substAttrs W _ _ _ _ h1
    | ok a' =>
      rw [h1] at h
      dsimp only at h
      cases h2 : subsFor (blockOf k) a' with
      | error b' => rw [h2] at h; cases h; exact plain_subsFor _ _ _ h2
      | ok subs =>
        rw [h2] at h
        dsimp only at h
        split at h
        · revert h
          generalize h4 : substAll W _ _ es = x
          intro h
          cases x with
          | error b' => cases h; exact all_plain W hW hs _ _ _ h4
          | ok q => cases h
        · exact plain_verbatim W _ _ _ _ _ _ _ h
  | _, .verbatim (k := k) (a := a) (es := es) hk, c, opts => by
    intro b h
    conv at h => lhs; unfold substOne
    cases h1 : substAttrs W c opts a with
    | error b' => rw [h1] at h; cases h; exact plain_substAttrs W _ _ _ _ h1
    | ok a' =>
      rw [h1] at h
      dsimp only at h
      cases h2 : subsFor (blockOf k) a' with
      | error b' => rw [h2] at h; cases h; exact plain_subsFor _ _ _ h2
      | ok subs =>
        rw [h2] at h
        dsimp only at h
        rw [if_neg (fun h => hk (C23.Doc.compound_iff.1 h))] at h
        exact plain_verbatim W _ _ _ _ _ _ _ h
  | _, .group (n := n) (a := a) (es := es) hs, c, opts => by
    intro b h
    conv at h => lhs; unfold substOne
    cases h1 : substAttrs W c opts a with
    | error b' => rw [h1] at h; cases h; exact plain_substAttrs W _ _ _ _ h1
    | ok a' =>
      rw [h1] at h
      dsimp only at h
      cases h2 : subsFor .other a' with
      | error b' => rw [h2] at h; cases h; exact plain_subsFor _ _ _ h2
      | ok subs =>
        rw [h2] at h
        dsimp only at h
        revert h
        generalize h4 : substAll W _ _ es = x
        intro h
        cases x with
        | error b' => cases h; exact all_plain W hW hs _ _ _ h4
        | ok q => cases h
  | _, .cell (f := f) (es := es) hs, c, opts => by
    intro b h
    conv at h => lhs; unfold substOne
    revert h
    generalize h4 : substAll W _ _ es = x
    intro h
    cases x with
    | error b' => cases h; exact all_plain W hW hs _ _ _ h4
    | ok q => cases h
  | e, .other n1 n2 n3 n4 n5 n6 n7 n8, c, opts => by
    intro b h
    cases e with
    | header a t es => exact absurd rfl (n1 a t es)
    | «section» n a t => exact absurd rfl (n2 n a t)
    | table a hd r f => exact absurd rfl (n3 a hd r f)
    | continuation o x => exact absurd rfl (n4 o x)
    | labeled n a t es => exact absurd rfl (n5 n a t es)
    | block k a es => exact absurd rfl (n6 k a es)
    | group n a es => exact absurd rfl (n7 n a es)
    | cell f es => exact absurd rfl (n8 f es)
    | paragraph a es => unfold substOne at h; exact plain_paragraph W _ _ _ _ _ h
    | located n a l => unfold substOne at h; exact plain_located W _ _ _ _ _ _ h
    | declare n v => unfold substOne at h; exact plain_declare W _ _ _ _ h
    | _ => unfold substOne at h; cases h
theorem all_plain (W : World) (hW : Speaks W) : ∀ {es : List Any}, SafeAll W es → ∀ (c : Walk.Ctx) (opts : List Opt), Plain (substAll W c opts es)
  | _, .nil, c, opts => by intro b h; unfold substAll at h; cases h
  | _, .cons (e := e) (es := es) h1 h2, c, opts => by
    intro b h
    conv at h => lhs; unfold substAll
    cases h3 : substOne W c opts e with
    | error b' => rw [h3] at h; cases h; exact one_plain W hW h1 c opts _ h3
    | ok p =>
      rw [h3] at h
      dsimp only at h
      cases h4 : substAll W p.2 opts es with
      | error b' => rw [h4] at h; cases h; exact all_plain W hW h2 _ opts _ h4
      | ok q => rw [h4] at h; cases h
theorem cell_plain (W : World) (hW : Speaks W) : ∀ {e : Any}, Safe W e → ∀ (c : Walk.Ctx) (opts : List Opt) (hd : Bool), Plain (substCell W c opts hd e)
  | _, .cell (f := f) (es := es) hs, c, opts, hd => by
    intro b h
    conv at h => lhs; unfold substCell
    split at h
    · split at h
      · revert h
        generalize h1 : substParagraph W c opts _ _ = x
        intro h
        cases x with
        | error b' => cases h; exact plain_paragraph W _ _ _ _ _ h1
        | ok q => cases h
      · cases h
    · revert h
      generalize h4 : substAll W _ _ es = x
      intro h
      cases x with
      | error b' => cases h; exact all_plain W hW hs _ _ _ h4
      | ok q => cases h
  | e, .other n1 n2 n3 n4 n5 n6 n7 n8, c, opts, hd => by
    intro b h
    cases e with
    | cell f es => exact absurd rfl (n8 f es)
    | _ => unfold substCell at h; cases h
  | _, .header _ _, c, opts, hd => by intro b h; unfold substCell at h; cases h
  | _, .section _, c, opts, hd => by intro b h; unfold substCell at h; cases h
  | _, .table _ _ _ _, c, opts, hd => by intro b h; unfold substCell at h; cases h
  | _, .continuation _, c, opts, hd => by intro b h; unfold substCell at h; cases h
  | _, .labeled _, c, opts, hd => by intro b h; unfold substCell at h; cases h
  | _, .block _, c, opts, hd => by intro b h; unfold substCell at h; cases h
  | _, .verbatim _, c, opts, hd => by intro b h; unfold substCell at h; cases h
  | _, .group _, c, opts, hd => by intro b h; unfold substCell at h; cases h
theorem row_plain (W : World) (hW : Speaks W) : ∀ {es : List Any}, SafeAll W es → ∀ (c : Walk.Ctx) (opts : List Opt) (n : Nat),
    Plain (substRow W c opts n es)
  | _, .nil, c, opts, n => by intro b h; unfold substRow at h; cases h
  | _, .cons (e := e) (es := es) h1 h2, c, opts, n => by
    intro b h
    conv at h => lhs; unfold substRow
    cases h3 : substCell W c opts (decide (0 < n)) e with
    | error b' => rw [h3] at h; cases h; exact cell_plain W hW h1 c opts _ _ h3
    | ok p =>
      rw [h3] at h
      dsimp only at h
      cases h4 : substRow W p.2 opts (n - 1) es with
      | error b' => rw [h4] at h; cases h; exact row_plain W hW h2 _ opts _ _ h4
      | ok q => rw [h4] at h; cases h
theorem row?_plain (W : World) (hW : Speaks W) : ∀ {r : Option (List Any)}, SafeRow W r → ∀ (c : Walk.Ctx) (opts : List Opt) (n : Nat),
    Plain (substRow? W c opts n r)
  | _, .none, c, opts, n => by intro b h; unfold substRow? at h; cases h
  | _, .some (r := r) h1, c, opts, n => by
    intro b h
    unfold substRow? at h
    cases h3 : substRow W c opts n r with
    | error b' => rw [h3] at h; cases h; exact row_plain W hW h1 c opts _ _ h3
    | ok p => rw [h3] at h; cases h
theorem rows_plain (W : World) (hW : Speaks W) : ∀ {rs : List (List Any)}, SafeRows W rs → ∀ (c : Walk.Ctx) (opts : List Opt) (n : Nat),
    Plain (substRows W c opts n rs)
  | _, .nil, c, opts, n => by intro b h; unfold substRows at h; cases h
  | _, .cons (r := r) (rs := rs) h1 h2, c, opts, n => by
    intro b h
    conv at h => lhs; unfold substRows
    cases h3 : substRow W c opts n r with
    | error b' => rw [h3] at h; cases h; exact row_plain W hW h1 c opts _ _ h3
    | ok p =>
      rw [h3] at h
      dsimp only at h
      cases h4 : substRows W p.2 opts (n - p.1.length) rs with
      | error b' => rw [h4] at h; cases h; exact rows_plain W hW h2 _ opts _ _ h4
      | ok q => rw [h4] at h; cases h
end

/-- C57: the stage does not crash, whatever the attributes given through the API: not on any document in which the titles of
sections contain something other than references, e-mail addresses in the header come after an author, and the columns of tables are
at least one, with enough cells for a header and a footer. -/
theorem no_panic (W : World) (hW : Speaks W) (api : AMap Any) {doc : List Any} (h : SafeAll W doc) :
    substAll W (newCtx api) [] doc ≠ .error .panic := by
  intro hx
  have := all_plain W hW h _ _ _ hx
  cases this

/-- A whole sequence of fragments: the stage goes on from one to the next with the context as it is then. -/
theorem no_panic_fragment (W : World) (hW : Speaks W) (c : Walk.Ctx) {es : List Any} (h : SafeAll W es) :
    substFragment W c (.elements es) ≠ .error .panic := by
  intro hx
  unfold substFragment at hx
  dsimp only at hx
  cases h1 : substAll W c [] es with
  | error b => rw [h1] at hx; cases hx; cases all_plain W hW h _ _ _ h1
  | ok p => rw [h1] at hx; cases hx

/-! ### Findings -/

/-- A parser that takes a text as it is, and `0*` and `2*` as columns. -/
def sampleWorld : World where
  parse s t := if s.entry = .tableColumnsAttribute then
      (if t = "0*".toList then some [.column 0] else if t = "2*".toList then some [.column 2] else none)
    else some [.str t]
  plainText _ := none
  attribution _ := none
  format _ := []

/-- Finding: `== {foo}` with `foo` empty, as on the command line with `-a foo=`, crashes the program, whatever the parser does. -/
theorem finding_empty_title (W : World) :
    substAll W (newCtx [("foo", .text [])]) [] [.section 1 [] [.ref "foo"]] = .error .panic := by kernel_rfl

/-- Finding: `:email: a@b` in a header without author crashes the program. -/
theorem finding_email (W : World) (e : Text) : substAll W (newCtx []) [] [.header [] [] [.declare "email" (.text e)]] = .error .panic := by
  kernel_rfl

/-- Finding: so does an author after the e-mail address. -/
theorem finding_email_first (W : World) (a e : Text) :
    substAll W (newCtx []) [] [.header [] [] [.declare "email" (.text e), .declare "author" (.text a)]] = .error .panic := by
  kernel_rfl

/-- Finding: a table with `cols="0*"` crashes the program. -/
theorem finding_no_columns :
    substAll sampleWorld (newCtx []) [] [.table [("cols", .text "0*".toList)] none [[.cell 0 []]] none] = .error .panic := by kernel_rfl

/-- Finding: so does a table with a header and a footer, but cells for only one row. -/
theorem finding_one_row :
    substAll sampleWorld (newCtx []) []
      [.table [("cols", .text "2*".toList), ("options", .options [.text "header".toList, .text "footer".toList])] none
        [[.cell 0 [], .cell 0 []]] none] = .error .panic := by kernel_rfl

/-- Finding: a title that refers to an attribute without value (`:foo:`, then `.{foo}`) makes the conversion fail. -/
theorem finding_title_fails (W : World) (es : List Any) :
    substAll W (newCtx []) [] [.declare "foo" .nil, .paragraph [("title", .slice [.ref "foo"])] es] = .error .error := by kernel_rfl

/-! ### The hypotheses are met -/

theorem sample_speaks : Speaks sampleWorld := by
  intro s t es hs ht h
  unfold sampleWorld at h
  dsimp only at h
  rw [if_neg (by rw [hs]; decide)] at h
  cases h
  exact fun hx => by cases hx

/-- A header with author and e-mail, a section with a reference in its title, a table with a header and two columns. -/
def sampleDoc : List Any :=
  [.header [] [.ref "x"] [.declare "author" (.text ['A']), .declare "email" (.slice [.ref "x"])],
   .section 1 [] [.str ['S'], .ref "x"],
   .table [("cols", .text "2*".toList), ("options", .options [.text "header".toList])] none
     [[.cell 0 [.paragraph [] [.raw ['a']]], .cell 0 []]] none]

theorem sample_safe : SafeAll sampleWorld sampleDoc := by
  refine .cons (.header ?_ ?_) (.cons (.section ⟨.str ['S'], List.mem_cons_self .., fun h => by cases h⟩) (.cons (.table ?_ .none ?_ .none) .nil))
  · intro pre v post h
    left
    refine ⟨['A'], ?_⟩
    cases pre with
    | nil => exact absurd (List.cons.inj h).1 (by intro hx; injection hx with hx; revert hx; decide)
    | cons x xs => rw [← (List.cons.inj h).1]; exact List.mem_cons_self ..
  · refine .cons (.other ?_ ?_ ?_ ?_ ?_ ?_ ?_ ?_) (.cons (.other ?_ ?_ ?_ ?_ ?_ ?_ ?_ ?_) .nil) <;> (intros; intro h; cases h)
  · intro v hv t ht s es hs hp
    have hv : v = .text "2*".toList := (Option.some.inj (show some (Any.text "2*".toList) = some v from hv)).symm
    subst hv
    rcases ht with ht | ht
    · injection ht with ht
      subst ht
      unfold sampleWorld at hp
      dsimp only at hp
      rw [if_pos hs, if_neg (by decide), if_pos rfl] at hp
      cases hp
      refine ⟨[2], rfl, by decide, fun _ => by decide, ?_⟩
      rintro ⟨_, h | h⟩
      · cases h
      · rcases h with ⟨v, hv⟩ | ⟨l, hl, v, hv, hx⟩
        · exact absurd hv (by intro h; cases h)
        · have hl : l = [.text "header".toList] := by
            have := Option.some.inj (show some (Any.options [.text "header".toList]) = some (.options l) from hl)
            injection this with this
            exact this.symm
          subst hl
          rcases List.mem_cons.1 hv with rfl | hv
          · rcases hx with hx | hx
            · injection hx with hx; revert hx; decide
            · exact absurd rfl (hx _)
          · cases hv
    · exact absurd rfl (ht _)
  · refine .cons (.cons (.cell (.cons (.other ?_ ?_ ?_ ?_ ?_ ?_ ?_ ?_) .nil)) (.cons (.cell .nil) .nil)) .nil <;> (intros; intro h; cases h)

end Verif.C57
