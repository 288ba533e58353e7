import Verif.Props.InlineSubst
import Verif.Props.Prose
import Verif.Proofs.KernelRfl

/-!
# C65 — Inline markup: rendering
-/
namespace Verif
namespace C65
open PlainText Paragraphs Actions
open Inlined (Sign Mark tagged entity)
open Prose (char)
open Walk (Any)
open Rend
open C60 (Shows)

/-- The kinds of quoted text (quoted_text.go:29-44), by their labels. -/
def quotedKind (n : Nat) : QuotedKind :=
  if n = quotedLabel 0 then .bold
  else if n = quotedLabel 1 then .italic
  else if n = quotedLabel 2 then .monospace
  else if n = quotedLabel 3 then .marked
  else if n = quotedLabel 4 then .subscript
  else if n = quotedLabel 5 then .superscript
  else .other

section
/- `fix`: what becomes of the identifiers of references (`InternalCrossReference.ResolveID`, types.go:1891-1917, if the document has sections). -/
variable (fix : Text → Text)

mutual
/-- Inline elements, as the renderer receives them. -/
def inl : Any → El
  | .str t => .str t
  | .special t => .special t
  | .leaf n => if n < 10 then .other else .symbol ((symbolNames[n - 10]?).getD "").toList
  | .group n _ es => .quoted (quotedKind n) [] (inls es)
  | .closed _ [.text id, .text l] => .xref (.str (fix id)) (.str l)
  | .closed _ [.text id, .nil] => .xref (.str (fix id)) .nil
  | _ => .other
def inls : List Any → List El
  | [] => []
  | e :: es => inl e :: inls es
end

/-- Elements of a document with inline markup, as the renderer receives them. -/
def toEl : Any → El
  | .paragraph _ es => .paragraph [] (inls fix es)
  | .leaf _ => .blankLine
  | _ => .other

end

/-- What is shown for a symbol (symbol.go:9-25). -/
theorem sign_shown (fix : Text → Text) (s : Sign) : inl fix (.leaf (signLabel s)) = .symbol (signName s).toList ∧ symbols.lookup (signName s).toList = some (s.shown.flatMap entity) := by
  cases s <;> exact ⟨by rfl, by kernel_rfl⟩

/-- The templates for quoted text (html5/quoted_text.go:4-9), and for references (html5/cross_reference.go:4). -/
structure Quotes (L : Lib) : Prop where
  bold : L.tmpl.boldText = Tmpl.Html5.boldTextTmpl
  italic : L.tmpl.italicText = Tmpl.Html5.italicTextTmpl
  mono : L.tmpl.monospaceText = Tmpl.Html5.monospaceTextTmpl
  mark : L.tmpl.markedText = Tmpl.Html5.markedTextTmpl
  sub : L.tmpl.subscriptText = Tmpl.Html5.subscriptTextTmpl
  sup : L.tmpl.superscriptText = Tmpl.Html5.superscriptTextTmpl
  xref : L.tmpl.internalCrossReference = Tmpl.Html5.internalCrossReferenceTmpl

theorem quotes_both : Quotes (C51.lib Html.html) ∧ Quotes (C51.lib Html.xhtml) := ⟨⟨rfl, rfl, rfl, rfl, rfl, rfl, rfl⟩, ⟨rfl, rfl, rfl, rfl, rfl, rfl, rfl⟩⟩

/-- The arguments of a template for quoted text. -/
def quotedEnv (g : Text) : Tmpl.Env := [("ID", .str []), ("Roles", .str []), ("Content", .str g)]

theorem quoted_shows {L : Lib} (hL : Quotes L) {c : Rend.Ctx} {k : Nat} (hk : k < 6) {re : El → M Text} {es : List El} {g : Text}
    (h : renderAll re es c = .ok (g, c)) : renderQuoted L re (quotedKind (quotedLabel k)) [] es c = .ok (tagged (kindTag k) g, c) := by
  unfold renderQuoted
  show M.bind (renderAll re es) _ c = _
  unfold M.bind
  rw [h]
  show M.bind (elementRoles re []) _ c = _
  unfold M.bind
  show (match quotedKind (quotedLabel k) with
    | .bold => exec L (·.boldText) (quotedEnv g)
    | .italic => exec L (·.italicText) (quotedEnv g)
    | .marked => exec L (·.markedText) (quotedEnv g)
    | .monospace => exec L (·.monospaceText) (quotedEnv g)
    | .subscript => exec L (·.subscriptText) (quotedEnv g)
    | .superscript => exec L (·.superscriptText) (quotedEnv g)
    | .other => M.error .fail) c = _
  have hx : ∀ {f : Tmpl.Templates → Tmpl.Tm} {t : Tmpl.Tm} {x : Text}, f L.tmpl = t → t.render L.lower (quotedEnv g) = some x →
      exec L f (quotedEnv g) c = .ok (x, c) := by
    intro f t x h1 h2
    unfold exec
    rw [h1, h2]
    rfl
  match k, hk with
  | 0, _ => exact hx hL.bold (by simp [Tmpl.Html5.boldTextTmpl, quotedEnv, kindTag, tagged, Tmpl.Tm.render, Tmpl.Cond.eval, AMap.get, Tmpl.Val.truth, Tmpl.Val.shown, Tmpl.Fn.call])
  | 1, _ => exact hx hL.italic (by simp [Tmpl.Html5.italicTextTmpl, quotedEnv, kindTag, tagged, Tmpl.Tm.render, Tmpl.Cond.eval, AMap.get, Tmpl.Val.truth, Tmpl.Val.shown, Tmpl.Fn.call])
  | 2, _ => exact hx hL.mono (by simp [Tmpl.Html5.monospaceTextTmpl, quotedEnv, kindTag, tagged, Tmpl.Tm.render, Tmpl.Cond.eval, AMap.get, Tmpl.Val.truth, Tmpl.Val.shown, Tmpl.Fn.call])
  | 3, _ => exact hx hL.mark (by simp [Tmpl.Html5.markedTextTmpl, quotedEnv, kindTag, tagged, Tmpl.Tm.render, Tmpl.Cond.eval, AMap.get, Tmpl.Val.truth, Tmpl.Val.shown, Tmpl.Fn.call])
  | 4, _ => exact hx hL.sub (by simp [Tmpl.Html5.subscriptTextTmpl, quotedEnv, kindTag, tagged, Tmpl.Tm.render, Tmpl.Cond.eval, AMap.get, Tmpl.Val.truth, Tmpl.Val.shown, Tmpl.Fn.call])
  | 5, _ => exact hx hL.sup (by simp [Tmpl.Html5.superscriptTextTmpl, quotedEnv, kindTag, tagged, Tmpl.Tm.render, Tmpl.Cond.eval, AMap.get, Tmpl.Val.truth, Tmpl.Val.shown, Tmpl.Fn.call])

theorem str_shows {L : Lib} {c : Rend.Ctx} {u : Bool} (hu : getBoolD c.attrs "unicode" true = u) {n : Nat} {t : Text} (h : Flat t) :
    renderElement L (n + 1) (.str t) c = .ok (t.flatMap (char u), c) := by
  show Except.ok (Escape.renderString (getBoolD c.attrs "unicode" true) t, c) = _
  rw [hu, C60.renderString_flat u t h]

theorem special_shows {L : Lib} {c : Rend.Ctx} {u : Bool} {n : Nat} {d : Char} (hd : isSpecial d = true) :
    renderElement L (n + 1) (.special [d]) c = .ok (char u d, c) := by
  simp only [isSpecial, Bool.or_eq_true, beq_iff_eq] at hd
  rcases hd with (rfl | rfl) | rfl <;> rfl

theorem all_cons {re : El → M Text} {c : Rend.Ctx} {e : El} {es : List El} {g h : Text} (h1 : re e c = .ok (g, c)) (h2 : renderAll re es c = .ok (h, c)) :
    renderAll re (e :: es) c = .ok (g ++ h, c) := by
  show M.bind (re e) _ c = _
  unfold M.bind
  rw [h1]
  show M.bind (renderAll re es) _ c = _
  unfold M.bind
  rw [h2]
  rfl

/-- The renderer is in the situation of `v`. -/
structure Sees (L : Lib) (fix : Text → Text) (v : Inlined.View) (c : Rend.Ctx) : Prop where
  unicode : getBoolD c.attrs "unicode" true = v.unicode
  lower : L.lower = v.lower
  target : ∀ id, fix id = v.target id
  label : ∀ n pl id, Rend.refLabel (renderElement L (n + 1)) pl id (c.refs.lookup id) c = .ok (v.label id, c)

theorem link_shows {L : Lib} (hL : Quotes L) {c : Rend.Ctx} {v : Inlined.View} (hl : L.lower = v.lower) (id l : Text) :
    exec L (·.internalCrossReference) [("Href", .str id), ("Label", .str l)] c = .ok (Inlined.link v id l, c) := by
  unfold exec
  dsimp only
  rw [hL.xref, hl]
  show Except.ok ("<a href=\"#".toList ++ (v.lower id ++ ("\">".toList ++ (l ++ ("</a>".toList ++ [])))), c) = _
  unfold Inlined.link
  rw [List.append_nil, List.append_assoc, List.append_assoc, List.append_assoc]

theorem ref_shows {L : Lib} (hL : Quotes L) {fix : Text → Text} {c : Rend.Ctx} {v : Inlined.View} (hc : Sees L fix v c) (n : Nat) (id : Text) (l : Option Text) :
    renderElement L (n + 2) (inl fix (cross id l)) c = .ok (Inlined.link v (v.target id) (l.getD (v.label (v.target id))), c) := by
  rw [← hc.target]
  have h1 : ∀ re pl x l, renderXref L re pl (.str x) (.str l) c = .ok (Inlined.link v x l, c) := fun re pl x l => link_shows hL hc.lower _ _
  have h2 : ∀ re pl x l, Rend.refLabel re pl x (c.refs.lookup x) c = .ok (l, c) → renderXref L re pl (.str x) .nil c = .ok (Inlined.link v x l, c) := by
    intro re pl x l h
    unfold renderXref
    show M.bind (Rend.refLabel re pl x (c.refs.lookup x)) _ c = _
    unfold M.bind
    rw [h]
    exact link_shows hL hc.lower _ _
  cases l with
  | some l => exact h1 (renderElement L (n + 1)) (fun _ _ => .ok []) _ _
  | none => exact h2 _ _ _ _ (hc.label n _ _)

/-- Elements are rendered to what they stand for. -/
theorem draws_show {L : Lib} (hL : Quotes L) (fix : Text → Text) {u : Inlined.View} {es : List Any} {h : Text} (hd : Draws u es h) :
    ∃ d, ∀ n ≥ d, ∀ c : Rend.Ctx, Sees L fix u c → renderAll (renderElement L (n + 1)) (inls fix es) c = .ok (h, c) := by
  induction hd with
  | nil => exact ⟨0, fun _ _ _ _ => rfl⟩
  | str hf _ ih =>
    obtain ⟨d, ih⟩ := ih
    exact ⟨d, fun n hn c hc => all_cons (str_shows hc.unicode hf) (ih n hn c hc)⟩
  | special hf _ ih =>
    obtain ⟨d, ih⟩ := ih
    exact ⟨d, fun n hn c hc => all_cons (special_shows hf) (ih n hn c hc)⟩
  | @sign s es h _ ih =>
    obtain ⟨d, ih⟩ := ih
    refine ⟨d, fun n hn c hc => ?_⟩
    obtain ⟨h1, h2⟩ := sign_shown fix s
    show renderAll _ (inl fix (.leaf (signLabel s)) :: inls fix es) c = _
    rw [h1]
    refine all_cons ?_ (ih n hn c hc)
    show renderSymbol (signName s).toList c = _
    unfold renderSymbol
    rw [h2]
    rfl
  | @group k xs es g h hk _ _ i1 i2 =>
    obtain ⟨d1, i1⟩ := i1
    obtain ⟨d2, i2⟩ := i2
    refine ⟨d1 + d2 + 1, fun n hn c hc => all_cons ?_ (i2 n (by omega) c hc)⟩
    obtain ⟨m, rfl⟩ : ∃ m, n = m + 1 := ⟨n - 1, by omega⟩
    exact quoted_shows hL hk (i1 m (by omega) c hc)
  | @ref id l es h _ ih =>
    obtain ⟨d, ih⟩ := ih
    refine ⟨d + 1, fun n hn c hc => all_cons ?_ (ih n (by omega) c hc)⟩
    obtain ⟨m, rfl⟩ : ∃ m, n = m + 1 := ⟨n - 1, by omega⟩
    exact ref_shows hL hc m id l

/-! ### The ends of a paragraph -/

theorem trim_ends {t : Text} (h1 : ∀ c ∈ t.head?, c ≠ '\n') (h2 : ∀ c ∈ t.getLast?, c ≠ '\n') : Rend.trim (· == '\n') t = t := by
  cases t with
  | nil => rfl
  | cons c t =>
    unfold Rend.trim
    rw [List.dropWhile_cons_of_neg (by simpa using h1 c rfl)]
    have hne : (c :: t) ≠ [] := fun h => nomatch h
    have hl := h2 _ (List.getLast?_eq_some_getLast hne)
    conv => lhs; rw [← List.dropLast_concat_getLast hne]
    conv => rhs; rw [← List.dropLast_concat_getLast hne]
    unfold Rend.trimRight
    rw [List.reverse_append, List.reverse_cons, List.reverse_nil, List.nil_append, List.singleton_append,
      List.dropWhile_cons_of_neg (by simpa using hl), List.reverse_cons, List.reverse_reverse]

theorem flat_head (u : Bool) {t : Text} (hne : t ≠ []) (h : ∀ c ∈ t.head?, c ≠ '\n') : ∃ d x, t.flatMap (char u) = d :: x ∧ d ≠ '\n' := by
  cases t with
  | nil => exact absurd rfl hne
  | cons c t =>
    obtain ⟨d, x, e, hd⟩ := C60.char_first u c (h c rfl)
    exact ⟨d, x ++ t.flatMap (char u), by rw [List.flatMap_cons, e]; rfl, hd⟩

theorem flat_last (u : Bool) {t : Text} (hne : t ≠ []) (h : ∀ c ∈ t.getLast?, c ≠ '\n') : ∃ x d, t.flatMap (char u) = x ++ [d] ∧ d ≠ '\n' := by
  obtain ⟨x, d, e, hd⟩ := C60.char_last u _ (h _ (List.getLast?_eq_some_getLast hne))
  refine ⟨t.dropLast.flatMap (char u) ++ x, d, ?_, hd⟩
  conv => lhs; rw [← List.dropLast_concat_getLast hne]
  rw [List.flatMap_append, List.flatMap_cons, List.flatMap_nil, List.append_nil, e, List.append_assoc]

theorem tagged_ends (tag t : Text) : ∃ x, tagged tag t = '<' :: (x ++ ['>']) := ⟨tag ++ '>' :: t ++ "</".toList ++ tag, by simp [tagged]⟩

theorem entities_ends (s : Sign) : ∃ x, s.shown.flatMap entity = '&' :: (x ++ [';']) := by
  have one : ∀ c, entity c = '&' :: (('#' :: itoa c.toNat) ++ [';']) := fun c => by simp [entity]
  have two : ∀ a b, ∃ x, entity a ++ entity b = '&' :: (x ++ [';']) := fun a b => by
    rw [one a, one b]
    exact ⟨('#' :: itoa a.toNat) ++ [';'] ++ '&' :: '#' :: itoa b.toNat, by simp⟩
  have two' : ∀ a b, ∃ x, [a, b].flatMap entity = '&' :: (x ++ [';']) := fun a b => by
    have e : [a, b].flatMap entity = entity a ++ entity b := by simp
    rw [e]; exact two a b
  have one' : ∀ a, ∃ x, [a].flatMap entity = '&' :: (x ++ [';']) := fun a => by
    have e : [a].flatMap entity = entity a := by simp
    rw [e]; exact ⟨_, one a⟩
  cases s <;> first | exact one' _ | exact two' _ _

theorem link_ends (v : Inlined.View) (id l : Text) : ∃ x, Inlined.link v id l = '<' :: (x ++ ['>']) :=
  ⟨"a href=\"#".toList ++ v.lower id ++ "\">".toList ++ l ++ "</a".toList, by
    unfold Inlined.link
    rw [List.append_assoc, List.append_assoc, List.append_assoc, List.append_assoc, List.append_assoc, List.append_assoc, List.append_assoc]
    rfl⟩

section
variable {letter number : Char → Bool}

theorem piece_head (u : Inlined.View) {prev : Option Char} {next : Text} {p : Inlined.Piece} (h : p.Ok letter number prev next)
    (hw : ∀ c ∈ p.written.head?, c ≠ '\n') : ∃ d x, p.html u = d :: x ∧ d ≠ '\n' := by
  match p, h with
  | .text t, h => exact flat_head u.unicode (show Inlined.TextOk letter number t next from h).some hw
  | .sign s, _ => obtain ⟨x, e⟩ := entities_ends s; exact ⟨'&', _, e, by decide⟩
  | .marked m b ps, _ => obtain ⟨x, e⟩ := tagged_ends m.tag (Inlined.html u ps); exact ⟨'<', _, e, by decide⟩
  | .script true t, _ => obtain ⟨x, e⟩ := tagged_ends "sup".toList (t.flatMap (char u.unicode)); exact ⟨'<', _, e, by decide⟩
  | .script false t, _ => obtain ⟨x, e⟩ := tagged_ends "sub".toList (t.flatMap (char u.unicode)); exact ⟨'<', _, e, by decide⟩
  | .ref id l, _ => obtain ⟨x, e⟩ := link_ends u (u.target id) (l.getD (u.label (u.target id))); exact ⟨'<', _, e, by decide⟩

theorem piece_last (u : Inlined.View) {prev : Option Char} {next : Text} {p : Inlined.Piece} (h : p.Ok letter number prev next)
    (hw : ∀ c ∈ p.written.getLast?, c ≠ '\n') : ∃ x d, p.html u = x ++ [d] ∧ d ≠ '\n' := by
  match p, h with
  | .text t, h => exact flat_last u.unicode (show Inlined.TextOk letter number t next from h).some hw
  | .sign s, _ => obtain ⟨x, e⟩ := entities_ends s; exact ⟨'&' :: x, ';', e, by decide⟩
  | .marked m b ps, _ => obtain ⟨x, e⟩ := tagged_ends m.tag (Inlined.html u ps); exact ⟨'<' :: x, '>', e, by decide⟩
  | .script true t, _ => obtain ⟨x, e⟩ := tagged_ends "sup".toList (t.flatMap (char u.unicode)); exact ⟨'<' :: x, '>', e, by decide⟩
  | .script false t, _ => obtain ⟨x, e⟩ := tagged_ends "sub".toList (t.flatMap (char u.unicode)); exact ⟨'<' :: x, '>', e, by decide⟩
  | .ref id l, _ => obtain ⟨x, e⟩ := link_ends u (u.target id) (l.getD (u.label (u.target id))); exact ⟨'<' :: x, '>', e, by decide⟩

theorem piece_ne {prev : Option Char} {next : Text} {p : Inlined.Piece} (h : p.Ok letter number prev next) : p.written ≠ [] := by
  match p, h with
  | .text t, h => exact (show Inlined.TextOk letter number t next from h).some
  | .sign s, _ => cases s <;> exact fun e => nomatch e
  | .marked m true ps, _ => exact fun e => nomatch e
  | .marked m false ps, _ => exact fun e => nomatch e
  | .script true t, _ => exact fun e => nomatch e
  | .script false t, _ => exact fun e => nomatch e
  | .ref id l, _ =>
    obtain ⟨w, hw⟩ := ref_head (id := id) (l := l)
    rw [hw]; exact fun e => nomatch e

theorem html_head (u : Inlined.View) {ps : List Inlined.Piece} {prev : Option Char} {next : Text} (h : Inlined.Ok letter number prev next ps)
    (hw : ∀ c ∈ (Inlined.written ps).head?, c ≠ '\n') : ∀ d ∈ (Inlined.html u ps).head?, d ≠ '\n' := by
  cases ps with
  | nil => intro d hd; cases hd
  | cons p ps =>
    obtain ⟨d, x, e, hd⟩ := piece_head u h.1 (fun c hc => hw c (by
      show c ∈ (p.written ++ Inlined.written ps).head?
      rw [List.head?_append_of_ne_nil _ (piece_ne h.1)]
      exact hc))
    intro d' hd'
    replace hd' : d' ∈ (p.html u ++ Inlined.html u ps).head? := hd'
    rw [e] at hd'
    cases hd'
    exact hd

theorem html_last (u : Inlined.View) {next : Text} : ∀ {ps : List Inlined.Piece} {prev : Option Char}, Inlined.Ok letter number prev next ps →
    (∀ c ∈ (Inlined.written ps).getLast?, c ≠ '\n') → ∀ d ∈ (Inlined.html u ps).getLast?, d ≠ '\n'
  | [], _, _, _ => fun _ hd => nomatch hd
  | [p], _, h, hw => by
    have e1 : Inlined.written [p] = p.written := List.append_nil _
    have e2 : Inlined.html u [p] = p.html u := List.append_nil _
    rw [e1] at hw
    rw [e2]
    obtain ⟨x, d, e, hd⟩ := piece_last u h.1 hw
    rw [e, List.getLast?_concat]
    intro d' hd'
    cases hd'
    exact hd
  | p :: q :: ps, _, h, hw => by
    have hq := h.2
    have hne : Inlined.written (q :: ps) ≠ [] := fun e => piece_ne hq.1 (List.append_eq_nil_iff.mp e).1
    have hw' : ∀ c ∈ (Inlined.written (q :: ps)).getLast?, c ≠ '\n' := fun c hc => hw c (by
      show c ∈ (p.written ++ Inlined.written (q :: ps)).getLast?
      rw [List.getLast?_append_of_ne_nil _ hne]
      exact hc)
    have ih := html_last u (ps := q :: ps) hq hw'
    intro d hd
    replace hd : d ∈ (p.html u ++ Inlined.html u (q :: ps)).getLast? := hd
    cases e : Inlined.html u (q :: ps) with
    | nil =>
      exfalso
      have : q.html u = [] := (List.append_eq_nil_iff.mp e).1
      match q, hq.1 with
      | .text t, h =>
        have hs := (show Inlined.TextOk letter number t _ from h).some
        cases t with
        | nil => exact hs rfl
        | cons c t =>
          replace this : (c :: t).flatMap (char u.unicode) = [] := this
          rw [List.flatMap_cons] at this
          have := (List.append_eq_nil_iff.mp this).1
          by_cases hc : c = '\n'
          · subst hc; revert this; cases u.unicode <;> exact fun this => absurd this (by decide)
          · obtain ⟨d, x, e, _⟩ := C60.char_first u.unicode c hc
            rw [e] at this; cases this
      | .sign s, _ => obtain ⟨x, e⟩ := entities_ends s; exact nomatch e.symm.trans this
      | .marked m b ps, _ => obtain ⟨x, e⟩ := tagged_ends m.tag (Inlined.html u ps); exact nomatch e.symm.trans this
      | .script true t, _ => obtain ⟨x, e⟩ := tagged_ends "sup".toList (t.flatMap (char u.unicode)); exact nomatch e.symm.trans this
      | .script false t, _ => obtain ⟨x, e⟩ := tagged_ends "sub".toList (t.flatMap (char u.unicode)); exact nomatch e.symm.trans this
      | .ref id l, _ => obtain ⟨x, e⟩ := link_ends u (u.target id) (l.getD (u.label (u.target id))); exact nomatch e.symm.trans this
    | cons d' x =>
      rw [List.getLast?_append_of_ne_nil _ (by rw [e]; exact fun h => nomatch h)] at hd
      exact ih d hd

end

theorem paragraph_shows {L : Lib} {c : Rend.Ctx} (hL : L.tmpl.paragraph = Tmpl.Html5.paragraphTmpl)
    (hh : hasOption c.attrs "hardbreaks" = false) (hw : c.within = false) (hl : c.withinList = 0) {n : Nat} {es : List Any} {h : Text} (fix : Text → Text)
    (hall : renderAll (renderElement L n) (inls fix es) c = .ok (h, c)) (h1 : ∀ c ∈ h.head?, c ≠ '\n') (h2 : ∀ c ∈ h.getLast?, c ≠ '\n') :
    renderElement L (n + 1) (toEl fix (.paragraph [] es)) c = .ok ("<div class=\"paragraph\">\n<p>".toList ++ h ++ "</p>\n</div>\n".toList, c) := by
  show renderParagraph L (renderElement L n) _ [] _ c = _
  have hpe : paragraphElements L (renderElement L n) [] (inls fix es) c = .ok (h, c) := by
    unfold paragraphElements
    show M.bind docAttrs _ c = _
    unfold M.bind
    show M.bind (renderAll _ _) _ c = _
    unfold M.bind
    rw [hall]
    show (if (hasOption ([] : Attrs) "hardbreaks" || hasOption c.attrs "hardbreaks") = true then (_ : M Text) else _) c = _
    rw [hh]
    rfl
  have hreg : regularParagraph L (renderElement L n) [] (inls fix es) c =
      .ok ("<div class=\"paragraph\">\n<p>".toList ++ h ++ "</p>\n</div>\n".toList, c) := by
    unfold regularParagraph
    show M.bind _ _ c = _
    unfold M.bind
    rw [hpe]
    show exec L (·.paragraph) _ c = _
    rw [trim_ends h1 h2]
    unfold exec
    dsimp only
    rw [hL]
    show Except.ok (_, c) = _
    simp [Tmpl.Fn.call]
  unfold renderParagraph
  show (if c.within = true ∨ c.withinList > 0 then (_ : M Text) else _) c = _
  rw [if_neg (by rw [hw, hl]; simp)]
  exact hreg

end C65
end Verif
