import Verif.Proofs.RunsBound
import Verif.Proofs.Depth
import Verif.Props.Content
/-!
C53: rendering ends.  C54: rendering does not panic.  C55: rendering does not fail.

`render L n d cfg` (Model/Render.lean) is `pkg/renderer/sgml`, with a bound `n` on the depth of the recursion: `.error .fuel` is a
recursion that is deeper.  `.error .panic` is a Go panic, `.error .fail` an error that is returned.  The conditions are in
Spec/Renderable.lean.
-/
namespace Verif.Rend
open Verif.Html

/-! ### To show the conditions of examples -/

def EveryN (sub : El → List El) (P : El → Prop) : Nat → El → Prop
  | 0, _ => False
  | n + 1, e => P e ∧ ∀ k ∈ sub e, EveryN sub P n k

theorem every_of {sub : El → List El} {P : El → Prop} : ∀ {n : Nat} {e : El}, EveryN sub P n e → Every sub P e
  | 0, _, h => h.elim
  | _ + 1, _, h => .intro h.1 fun k hk => every_of (h.2 k hk)

theorem all_of {P : El → Prop} {n : Nat} {l : List El} (h : ∀ e ∈ l, EveryN kids P n e) : ∀ e ∈ l, Every kids P e :=
  fun e he => every_of (h e he)

theorem panics {r : Except Err Text} (h : (match r with | .error .panic => true | _ => false) = true) : r = .error .panic := by
  cases r with
  | ok _ => cases h
  | error e => cases e <;> first | rfl | cases h

theorem fails {r : Except Err Text} (h : (match r with | .error .fail => true | _ => false) = true) : r = .error .fail := by
  cases r with
  | ok _ => cases h
  | error e => cases e <;> first | rfl | cases h

end Verif.Rend

namespace Verif
namespace C53
open Verif.Rend Verif.Html Verif.C51

/-- If references are not circular, rendering ends: there is a depth which the recursion does not exceed. -/
theorem ends (L : Lib) {rank : Label → Nat} {d : Doc} {cfg : Config} (h : Ranked rank d cfg) :
    ∃ n, ∀ m, n ≤ m → render L m d cfg ≠ .error .fuel := by
  obtain ⟨n, hn⟩ := render_errors (E := fun x => x ≠ .fuel) (L := L) (.inl (fun h => nomatch h)) (.inr h) (.inl fun h => nomatch h) (.inl fun h => nomatch h)
  exact ⟨n, fun m hm e => hn m hm _ e rfl⟩

/-- The bound on the depth is not part of the result: once the recursion has ended, a greater bound makes no difference, whether the
result is a text, an error or a panic. -/
theorem depth_irrelevant (L : Lib) {n m : Nat} (h : n ≤ m) {d : Doc} {cfg : Config} (hn : render L n d cfg ≠ .error .fuel) :
    render L m d cfg = render L n d cfg :=
  ((render_upto L h d cfg).out.resolve_left hn).symm

/-- Two bounds that are sufficient give the same result: there is one result. -/
theorem one_result (L : Lib) {n m : Nat} {d : Doc} {cfg : Config} (hn : render L n d cfg ≠ .error .fuel) (hm : render L m d cfg ≠ .error .fuel) :
    render L n d cfg = render L m d cfg := by
  rcases Nat.le_total n m with h | h
  · exact (depth_irrelevant L h hn).symm
  · exact depth_irrelevant L h hm

/-- If references are not circular, there is exactly one result. -/
theorem result (L : Lib) {rank : Label → Nat} {d : Doc} {cfg : Config} (h : Ranked rank d cfg) :
    ∃ r, r ≠ .error .fuel ∧ ∃ n, ∀ m, n ≤ m → render L m d cfg = r := by
  obtain ⟨n, hn⟩ := ends L h
  exact ⟨render L n d cfg, hn n (Nat.le_refl n), n, fun m hm => depth_irrelevant L hm (hn n (Nat.le_refl n))⟩

/-- A document without cross references to titles: nothing is circular. -/
theorem ends_without_references (L : Lib) {d : Doc} {cfg : Config}
    (h : ∀ e ∈ allEls d cfg, Every kids (fun x => needs x = none) e) : ∃ n, ∀ m, n ≤ m → render L m d cfg ≠ .error .fuel := by
  have below : ∀ {k : Nat} {e : El}, Every kids (fun x => needs x = none) e → Below (fun _ => 0) k e := fun h =>
    Every.mono h fun x hx l hl => by rw [hx] at hl; cases hl
  have decl : ∀ {e : El}, Every kids (fun x => needs x = none) e → Every kids (DeclBelow fun _ => 0) e := by
    intro e h
    induction h with
    | @intro x hx hk ih =>
      refine .intro ?_ ih
      cases x with
      | attrDecl name v => exact fun _ e he => below (hk e he)
      | frontMatter a => exact fun p hp _ e he => below (hk e (List.mem_flatMap.mpr ⟨p, hp, he⟩))
      | _ => trivial
  refine ends L (rank := fun _ => 0) ⟨?_, ?_, ?_, ?_, ?_⟩
  · exact fun p hp e he => below (h e (mem_refs hp he))
  · exact fun p hp => ⟨fun _ e he => below (h e (mem_config hp he)), fun e he => decl (h e (mem_config hp he))⟩
  · exact fun e he => decl (h e (mem_elements he))
  · exact fun n hn e he => decl (h e (mem_notes hn he))
  · exact fun p hp e he => decl (h e (mem_refs hp he))

/-- Two sections; the title of the second refers to the first. -/
def referring : Doc where
  elements :=
    [.attrDecl "toc-title" (.els [.str "See ".toList, .xref (.str "a".toList) .nil]),
     .sect 1 [("id", .str "a".toList)] [.str "First".toList] [.paragraph [] [.xref (.str "b".toList) .nil]],
     .sect 1 [("id", .str "b".toList)] [.str "After ".toList, .xref (.str "a".toList) .nil] [.toc none]]
  refs := [("a".toList, .els [.str "First".toList]), ("b".toList, .els [.str "After ".toList, .xref (.str "a".toList) .nil])]
  footnotes := []
  toc := none

def referringRank : Label → Nat
  | .ref id => if id = "a".toList then 0 else 1
  | .tocTitle => 2

theorem referring_ranked : Ranked referringRank referring (plainConfig []) := by
  have low : ∀ {k : Nat}, 1 ≤ k → Below referringRank k (.xref (.str "a".toList) .nil) := fun hk => .intro (by
    intro l hl; cases hl; exact hk) (fun k hk => nomatch hk)
  have str : ∀ {k : Nat} {t : Text}, Below referringRank k (.str t) := .intro (fun l hl => nomatch hl) (fun k hk => nomatch hk)
  refine ⟨?_, (fun p hp => nomatch hp), ?_, (fun n hn => nomatch hn), ?_⟩
  · intro p hp
    rcases List.mem_cons.mp hp with rfl | hp
    · exact C51.els_one str
    · rw [List.mem_singleton] at hp
      subst hp
      exact C51.els_cons str (C51.els_one (low (by decide)))
  · refine all_of (n := 5) ?_
    simp [referring, EveryN, kids, attrEls, valueEls, DeclBelow, TitleBelow]
    exact ⟨str, low (by decide)⟩
  · intro p hp
    rcases List.mem_cons.mp hp with rfl | hp
    · exact C51.els_one (.intro trivial fun k hk => nomatch hk)
    · rw [List.mem_singleton] at hp
      subst hp
      exact C51.els_cons (.intro trivial fun k hk => nomatch hk) (C51.els_one (.intro trivial fun k hk => nomatch hk))

/-- The theorem applies to a document with references in titles. -/
example : ∃ n, ∀ m, n ≤ m → render (lib html) m referring (plainConfig []) ≠ .error .fuel := ends _ referring_ranked

/-- A section whose title refers to itself: `[#a]` `== See <<a>>`. -/
def circular : Doc where
  elements := [.sect 1 [("id", .str "a".toList)] [.str "See ".toList, .xref (.str "a".toList) .nil] []]
  refs := [("a".toList, .els [.str "See ".toList, .xref (.str "a".toList) .nil])]
  footnotes := []
  toc := none

theorem bind_err {α β : Type} {m : M α} {f : α → M β} {c : Rend.Ctx} {e : Rend.Err} (h : m c = .error e) : (m >>= f) c = .error e := by
  show M.bind m f c = _
  unfold M.bind
  rw [h]

theorem bind_ok {α β : Type} {m : M α} {f : α → M β} {c c' : Rend.Ctx} {a : α} (h : m c = .ok (a, c')) : (m >>= f) c = f a c' := by
  show M.bind m f c = _
  unfold M.bind
  rw [h]

theorem see_ok (L : Lib) (n : Nat) (c : Rend.Ctx) : ∃ t, renderElement L (n + 1) (.str "See ".toList) c = .ok (t, c) := ⟨_, rfl⟩

theorem circular_xref (L : Lib) : ∀ (n : Nat) (c : Rend.Ctx), c.refs = circular.refs →
    renderElement L n (.xref (.str "a".toList) .nil) c = .error .fuel
  | 0, _, _ => rfl
  | n + 1, c, hc => by
    have ih := circular_xref L n c hc
    have hl : (c.refs.lookup "a".toList) = some (.els [.str "See ".toList, .xref (.str "a".toList) .nil]) := by rw [hc]; rfl
    unfold renderElement dispatch
    dsimp only
    unfold renderXref
    dsimp only
    rw [bind_ok (m := M.get) (c' := c) (a := c) rfl]
    refine bind_err ?_
    rw [hl]
    unfold Rend.refLabel
    conv => lhs; unfold Rend.xrefLabel
    dsimp only
    cases n with
    | zero => exact bind_err rfl
    | succ n =>
      obtain ⟨t, ht⟩ := see_ok L n c
      rw [bind_ok ht]
      refine bind_err ?_
      conv => lhs; unfold Rend.xrefLabel
      exact bind_err ih

theorem circular_sect (L : Lib) (n : Nat) (c : Rend.Ctx) (hc : c.refs = circular.refs) :
    renderElement L n (.sect 1 [("id", .str "a".toList)] [.str "See ".toList, .xref (.str "a".toList) .nil] []) c = .error .fuel := by
  cases n with
  | zero => rfl
  | succ n =>
    unfold renderElement dispatch
    dsimp only
    unfold renderSection
    refine bind_err ?_
    unfold sectionTitle
    refine bind_err ?_
    conv => lhs; unfold renderInline
    dsimp only
    cases n with
    | zero => exact bind_err rfl
    | succ n =>
      obtain ⟨t, ht⟩ := see_ok L n c
      rw [bind_ok ht]
      refine bind_err ?_
      conv => lhs; unfold renderInline
      exact bind_err (circular_xref L (n + 1) c hc)

/-- The renderer does not come to an end on a section whose title refers to itself (in Go: the stack overflows). -/
theorem finding_circular (n : Nat) : render (lib html) n circular (plainConfig []) = .error .fuel := by
  have key : ∀ (pl : Bool → El → Except Rend.Err Text) (c : Rend.Ctx), c.refs = circular.refs →
      AMap.get c.attrs "doctype" = none → AMap.get c.attrs "toc" = none →
      renderParts (lib html) (renderElement (lib html) n) pl false circular c = .error .fuel := by
    intro pl c hc hd ht
    unfold renderParts
    rw [bind_ok (m := prerenderToc _ circular.toc) (a := none) (c' := c) rfl]
    refine bind_err ?_
    have hm : ¬ getStrD (lib html).sprint c.attrs "doctype" "article".toList = "manpage".toList := by
      unfold getStrD; rw [hd]; exact (by decide : ¬ "article".toList = "manpage".toList)
    unfold splitAndRender
    rw [bind_ok (m := docAttrs) (a := c.attrs) (c' := c) rfl]
    dsimp only
    rw [if_neg hm, bind_ok (m := documentHeader _ _ _) (a := []) (c' := c) rfl]
    refine bind_err ?_
    unfold documentBody
    rw [bind_ok (m := docAttrs) (a := c.attrs) (c' := c) rfl]
    have : placeToc c.attrs none (bodyElements circular.elements) = .ok (bodyElements circular.elements) := by unfold placeToc; rw [ht]
    rw [bind_ok (m := M.lift (placeToc c.attrs none (bodyElements circular.elements))) (a := bodyElements circular.elements) (c' := c)
      (by rw [this]; rfl)]
    refine bind_err ?_
    exact bind_err (circular_sect (lib html) n c hc)
  have h := key (fun esc => plain (lib html) (if esc then some Escape.escapeString else none) n)
    (startContext circular ⟨defaultAttrs (plainConfig []), false, 0, [], circular.refs, false, [], []⟩) rfl rfl rfl
  have hc : newContext circular (plainConfig []) = .ok ⟨defaultAttrs (plainConfig []), false, 0, [], circular.refs, false, [], []⟩ := rfl
  have ht : ∀ pl, documentTitle pl (header circular.elements) = .ok "Untitled".toList := fun _ => rfl
  unfold render
  rw [hc]
  dsimp only
  rw [ht]
  dsimp only
  rw [show (plainConfig []).wrap = false from rfl, h]

end C53

namespace C54
open Verif.Rend Verif.Html Verif.C51

/-- Rendering does not panic, to whatever depth, if the document satisfies the conditions. -/
theorem no_panic {L : Lib} {d : Doc} {cfg : Config} (h : NoPanic L d cfg) (n : Nat) : render L n d cfg ≠ .error .panic := by
  intro e
  exact render_runs (E := fun x => x ≠ .panic) (rank := fun _ => 0) (K := 0) (.inl fun h => nomatch h)
    (docGood_of (.inl fun h => nomatch h) (.inr h) (.inl fun h => nomatch h) (.inl fun h => nomatch h)) (.inl fun h => nomatch h) e rfl

/-- Documents without verses, ordered lists, tables, and without doctype and authors do not need any condition. -/
def Simple : El → Prop
  | .paragraph a _ => getStr a "style" ≠ some "verse".toList
  | .list k _ _ => k ≠ .ordered
  | .table _ _ _ _ => False
  | .attrDecl name _ => name ∉ ["doctype", "author", "authors", "email"]
  | .frontMatter a => ∀ p ∈ a, p.1 ≠ "doctype"
  | _ => True

theorem authors_simple : ∀ {l : List El} {seen : Bool}, (∀ name v, El.attrDecl name v ∈ l → name ∉ ["doctype", "author", "authors", "email"]) →
    AuthorsOk seen l
  | [], _, _ => trivial
  | e :: l, seen, h => by
    have ih : ∀ {seen}, AuthorsOk seen l := fun {seen} => authors_simple fun n v hm => h n v (List.mem_cons_of_mem _ hm)
    cases e with
    | attrDecl name v =>
      have hn := h name v (List.mem_cons_self ..)
      have h1 : name ≠ "author" := fun e => hn (by subst e; decide)
      have h2 : name ≠ "email" := fun e => hn (by subst e; decide)
      have h3 : name ≠ "authors" := fun e => hn (by subst e; decide)
      cases v with
      | str t => unfold AuthorsOk; rw [if_neg h1, if_neg h2]; exact ih
      | authors as => unfold AuthorsOk; rw [if_neg h3]; exact ih
      | _ => exact ih
    | _ => exact ih

theorem no_panic_simple {L : Lib} {d : Doc} {cfg : Config} (h : ∀ e ∈ allEls d cfg, Every kids Simple e)
    (hc : ∀ p ∈ cfg.attrs, p.1 ≠ "doctype") (n : Nat) : render L n d cfg ≠ .error .panic := by
  have free : ∀ {e : El}, Every kids Simple e → Every kids (PanicFree L d) e := fun h => h.mono fun x hx => by
    cases x with
    | paragraph a els => exact fun e => absurd e hx
    | list k a items => cases k <;> first | trivial | exact absurd rfl hx
    | table _ _ _ _ => exact hx.elim
    | attrDecl name v => exact fun e => absurd (by subst e; decide) hx
    | frontMatter a => exact fun p hp e => absurd e (hx p hp)
    | _ => trivial
  refine no_panic ⟨?_, ?_, ?_, ?_, ?_⟩ n
  · exact fun e he => free (h e (mem_elements he))
  · exact fun p hp e he => free (h e (mem_refs hp he))
  · exact fun n hn e he => free (h e (mem_notes hn he))
  · exact fun p hp => ⟨fun e => absurd e (hc p hp), fun e he => free (h e (mem_config hp he))⟩
  · refine authors_simple fun name v hm => ?_
    unfold headerEls at hm
    split at hm
    · rename_i a t els hh
      exact ((h _ (mem_elements (header_mem hh))).kid (show El.attrDecl name v ∈ kids (.docHeader a t els) from List.mem_append_right _ hm)).here
    · cases hm

theorem sample_no_panic (L : Lib) (wrap : Bool) : NoPanic L sample (sampleConfig wrap) where
  elements := by
    refine all_of (n := 6) ?_
    simp [sample, EveryN, kids, attrEls, valueEls, roleEls, Item.term, Item.els, PanicFree, getStr, AMap.get, columnCount, colsCount, DoctypeOk]
  refs := by
    intro p hp
    rw [show sample.refs = [("_First".toList, .els [.str "First".toList])] from rfl, List.mem_singleton] at hp
    subst hp
    exact all_of (n := 2) (by simp [EveryN, kids, valueEls, PanicFree])
  notes := by
    intro p hp
    rw [show sample.footnotes = [⟨1, [], [.str "note".toList]⟩] from rfl, List.mem_singleton] at hp
    subst hp
    exact all_of (n := 2) (by simp [EveryN, kids, PanicFree])
  config := by
    intro p hp
    have hp : p ∈ [("toc", AV.str [])] := hp
    rw [List.mem_singleton] at hp
    subst hp
    exact ⟨fun e => absurd e (by decide), fun e he => nomatch he⟩
  authors := by
    show AuthorsOk false [_, _]
    unfold AuthorsOk
    rw [if_pos rfl]
    intro a ha
    rw [List.mem_singleton] at ha
    subst ha
    exact fun h => nomatch h

/-- The theorem applies to the sample of C51. -/
example (n : Nat) : render (lib html) n sample (sampleConfig true) ≠ .error .panic := no_panic (sample_no_panic _ true) n

/-- A verse with a special character: `[verse]` `a < b`. -/
theorem finding_verse : render (lib html) 10 (docOf [.paragraph [("style", .str "verse".toList)]
    [.str "a ".toList, .special "<".toList, .str " b".toList]]) (plainConfig []) = .error .panic := by
  apply panics; decide +kernel

/-- A header which declares an e-mail address, but no author: `= Title` `:email: a@b.c`. -/
theorem finding_email : render (lib html) 10 (docOf [.docHeader [] (some [.str "T".toList]) [.attrDecl "email" (.str "a@b.c".toList)]])
    (plainConfig []) = .error .panic := by
  apply panics; decide +kernel

/-- The address before the author: `:email: a@b.c` `:author: Ann`. -/
theorem finding_email_first : render (lib html) 10 (docOf [.docHeader [] (some [.str "T".toList])
    [.attrDecl "email" (.str "a@b.c".toList), .attrDecl "author" (.str "Ann".toList)]]) (plainConfig []) = .error .panic := by
  apply panics; decide +kernel

/-- A manual page which does not begin with a section, or whose first section does not begin with a paragraph. -/
theorem finding_manpage :
    render (lib html) 10 (docOf [.paragraph [] [.str "a".toList]]) (plainConfig [("doctype", .str "manpage".toList)]) = .error .panic ∧
    render (lib html) 10 (docOf [.sect 1 [] [.str "Name".toList] []]) (plainConfig [("doctype", .str "manpage".toList)]) = .error .panic ∧
    render (lib html) 10 (docOf []) (plainConfig [("doctype", .str "manpage".toList)]) = .error .panic := by
  refine ⟨panics ?_, panics ?_, panics ?_⟩ <;> decide +kernel

/-- An ordered list without items and without style; a row with more cells than the first one. -/
theorem finding_empty :
    render (lib html) 10 (docOf [.list .ordered [] []]) (plainConfig []) = .error .panic ∧
    render (lib html) 10 (docOf [.table [] none [[[.paragraph [] []]], [[.paragraph [] []], [.paragraph [] []]]] none]) (plainConfig []) =
      .error .panic := by
  refine ⟨panics ?_, panics ?_⟩ <;> decide +kernel

end C54

namespace C55
open Verif.Rend Verif.Html Verif.C51

/-- A document which satisfies the conditions is rendered. -/
theorem renders {L : Lib} (hL : Standard L) {rank : Label → Nat} {d : Doc} {cfg : Config} (hr : Ranked rank d cfg) (hp : NoPanic L d cfg)
    (hf : NoFail L d cfg) : ∃ n, ∀ m, n ≤ m → ∃ t, render L m d cfg = .ok t := by
  obtain ⟨n, hn⟩ := render_errors (E := fun _ => False) (.inr hL) (.inr hr) (.inr hp) (.inr hf)
  refine ⟨n, fun m hm => ?_⟩
  cases h : render L m d cfg with
  | error x => exact (hn m hm x h).elim
  | ok t => exact ⟨t, rfl⟩

/-- If it may panic, or not end: it does not fail otherwise. -/
theorem no_failure {L : Lib} (hL : Standard L) {d : Doc} {cfg : Config} (hf : NoFail L d cfg) (n : Nat) : render L n d cfg ≠ .error .fail := by
  intro e
  exact render_runs (E := fun x => x ≠ .fail) (rank := fun _ => 0) (K := 0) (.inr hL)
    (docGood_of (.inl fun h => nomatch h) (.inl fun h => nomatch h) (.inr hf) (.inl fun h => nomatch h)) (.inl fun h => nomatch h) e rfl

theorem sample_no_fail (wrap : Bool) : NoFail (lib html) sample (sampleConfig wrap) where
  body := by
    refine all_of (n := 6) ?_
    simp [sample, bodyElements, EveryN, kids, attrEls, valueEls, roleEls, Item.term, Item.els, FailFree, getStr, AMap.get, TitleOk, RolesOk, Textual, ListOk, ColsOk,
      HeadOk', AltOk, lib, Item.kind, symbols]
  header := by
    rintro a t els h
    cases h
    refine ⟨(fun l h => nomatch h), all_of (n := 3) ?_, ?_⟩
    · simp [EveryN, kids, attrEls, valueEls, FailFree, DocAttrOk]
    · exact els_one (.intro trivial fun k hk => nomatch hk)
  refs := by
    intro p hp
    rw [show sample.refs = [("_First".toList, .els [.str "First".toList])] from rfl, List.mem_singleton] at hp
    subst hp
    exact all_of (n := 2) (by simp [EveryN, kids, valueEls, FailFree])
  notes := by
    intro p hp
    rw [show sample.footnotes = [⟨1, [], [.str "note".toList]⟩] from rfl, List.mem_singleton] at hp
    subst hp
    exact all_of (n := 2) (by simp [EveryN, kids, FailFree])
  config := by
    intro p hp
    have hp : p ∈ [("toc", AV.str [])] := hp
    rw [List.mem_singleton] at hp
    subst hp
    exact ⟨⟨fun e => absurd e (by decide), fun e => absurd e (by decide), fun _ _ => .inr (.inl rfl)⟩, fun e he => nomatch he⟩
  toc := by
    intro l h
    cases h
    exact ⟨⟨⟨_, rfl⟩, trivial⟩, trivial⟩

theorem sample_ranked (wrap : Bool) : Ranked (fun _ => 0) sample (sampleConfig wrap) where
  refs := by
    intro p hp
    rw [show sample.refs = [("_First".toList, .els [.str "First".toList])] from rfl, List.mem_singleton] at hp
    subst hp
    exact els_one (.intro (fun l h => nomatch h) fun k hk => nomatch hk)
  config := by
    intro p hp
    have hp : p ∈ [("toc", AV.str [])] := hp
    rw [List.mem_singleton] at hp
    subst hp
    exact ⟨fun e => absurd e (by decide), fun e he => nomatch he⟩
  elements := by
    refine all_of (n := 6) ?_
    simp [sample, EveryN, kids, attrEls, valueEls, roleEls, Item.term, Item.els, DeclBelow, TitleBelow]
  notes := by
    intro p hp
    rw [show sample.footnotes = [⟨1, [], [.str "note".toList]⟩] from rfl, List.mem_singleton] at hp
    subst hp
    exact all_of (n := 2) (by simp [EveryN, kids, DeclBelow])
  titles := by
    intro p hp
    rw [show sample.refs = [("_First".toList, .els [.str "First".toList])] from rfl, List.mem_singleton] at hp
    subst hp
    exact all_of (n := 2) (by simp [EveryN, kids, valueEls, DeclBelow])

/-- The theorem applies to the sample of C51. -/
example (wrap : Bool) : ∃ n, ∀ m, n ≤ m → ∃ t, render (lib html) m sample (sampleConfig wrap) = .ok t :=
  renders (.inl rfl) (sample_ranked wrap) (C54.sample_no_panic _ wrap) (sample_no_fail wrap)

/-- `:toc: left`, `:toc: right`, `:toc: macro`: with a table of contents, the document is not rendered. -/
theorem finding_toc : ∀ t ∈ ["left".toList, "right".toList, "macro".toList, "auto".toList],
    render (lib html) 10 sample ⟨[("toc", .str t)], true, [], []⟩ = .error .fail := by
  intro t ht
  apply fails
  revert t
  decide +kernel

/-- `:icons: foo`: a document with an icon, an admonition or a callout list is not rendered. -/
theorem finding_icons :
    render (lib html) 10 (docOf [.paragraph [] [.icon "tip".toList []]]) (plainConfig [("icons", .str "foo".toList)]) = .error .fail := by
  apply fails; decide +kernel

/-- A labeled list with another style than `qanda` and `horizontal`: `[foo]` `a:: b`. -/
theorem finding_labeled :
    render (lib html) 10 (docOf [.list .labeled [("style", .str "foo".toList)]
      [.item .labeled [.paragraph [] [.str "b".toList]] [.str "a".toList] [] "nocheck".toList 0]]) (plainConfig []) = .error .fail := by
  apply fails; decide +kernel

/-- Quoted text in a source block with a language, which is to be highlighted (`subs=+quotes`). -/
theorem finding_source :
    render (lib html) 10 (docOf [.block .listing [("style", .str "source".toList), ("language", .str "go".toList)]
      [.quoted .bold [] [.str "a".toList]]]) (plainConfig [("source-highlighter", .str "chroma".toList)]) = .error .fail := by
  apply fails; decide +kernel

/-- A button in the title of the document: `= Press btn:[OK]`. -/
theorem finding_title :
    render (lib html) 10 (docOf [.docHeader [] (some [.str "Press ".toList, .button []]) []]) (plainConfig []) = .error .fail := by
  apply fails; decide +kernel

/-- A section whose reference is a string (`[reftext=…]`) in the table of contents. -/
theorem finding_reftext :
    render (lib html) 10 ⟨[.sect 1 [("id", .str "a".toList)] [.str "T".toList] []], [("a".toList, .str "T".toList)], [],
      some (some [.entry "a".toList 1 [] [] []])⟩ (plainConfig []) = .error .fail := by
  apply fails; decide +kernel

end C55
end Verif
