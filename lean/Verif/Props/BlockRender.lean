import Verif.Props.BlockSubst

/-!
# C62, continued — Rendering of blocks without markup
-/
namespace Verif
namespace C62
open Composed
open Walk (Any Kind)
open Rend
open Prose (char)
open Paragraphs (Line)

/-! ### What is left after the filter -/

mutual
/-- A block without the blank lines in it. -/
def final : Block → Any
  | .para l ls => content (.para l ls)
  | .blank _ => .leaf 0
  | .verb k f ls => content (.verb k f ls)
  | .comp k _ bs => .block (compKind k) [] (finalAll bs)
/-- The blocks without blank lines. -/
def finalAll : List Block → List Any
  | [] => []
  | .blank _ :: bs => finalAll bs
  | b :: bs => final b :: finalAll bs
end

/-- The kinds of blocks, for the renderer. -/
def kindOf : Kind → BlockKind
  | .example_ => .«example»
  | .fenced => .fenced
  | .listing => .listing
  | .literal => .literal
  | .markdownQuote => .markdownQuote
  | .pass => .pass
  | .quote => .quote
  | .sidebar => .sidebar
  | .verse => .verse
  | .open_ => .«open»
  | .comment => .other

/-- The kind of a list or an item with the label `n` (see `Actions`: 1 to 5 for the numberings, more for bullets). -/
def kindAt (n : Nat) : ListKind := if n < 6 then .ordered else .unordered

/-- The name of the numbering with the label `n`. -/
def numberingAt (n : Nat) : Text :=
  match n with
  | 1 => "arabic".toList
  | 2 => "loweralpha".toList
  | 3 => "lowerroman".toList
  | 4 => "upperalpha".toList
  | 5 => "upperroman".toList
  | _ => []

mutual
/-- Elements, as the renderer receives them. A list that is arranged is a group whose label is greater by 100 than the label of its items. -/
def el : Any → El
  | .paragraph _ es => .paragraph [] (els es)
  | .block k _ es => .block (kindOf k) [] (els es)
  | .str t => .str t
  | .special t => .special t
  | .leaf _ => .blankLine
  | .group n _ es => if n < 100 then .other else .list (kindAt (n - 100)) [] (items es)
  | _ => .other
def els : List Any → List El
  | [] => []
  | e :: es => el e :: els es
/-- An item of a list. -/
def item : Any → List Item
  | .group n _ es => [.item (kindAt n) (els es) [] (numberingAt n) "nocheck".toList 0]
  | _ => []
def items : List Any → List Item
  | [] => []
  | e :: es => item e ++ items es
end

theorem els_eq : ∀ es : List Any, els es = es.map el
  | [] => rfl
  | e :: es => congrArg (el e :: ·) (els_eq es)

theorem els_pieces (b : Bool) (t : Text) : els (PlainText.pieces b t) = (PlainText.pieces b t).map C60.inl := by
  rw [els_eq]
  refine List.map_congr_left fun e he => ?_
  rcases C59.pieces_textual b t e he with ⟨x, rfl⟩ | ⟨x, rfl⟩ <;> rfl

/-! ### Ends of lines before and after the text -/

theorem drop_newlines : ∀ ls : List Text, (∀ l ∈ ls, '\n' ∉ l) → (joinLF ls).dropWhile (· == '\n') = joinLF (ls.dropWhile List.isEmpty)
  | [], _ => rfl
  | [[]], _ => rfl
  | [c :: l], h => by
    have hc : c ≠ '\n' := fun e => h _ List.mem_cons_self (by rw [e]; exact List.mem_cons_self)
    show (c :: l).dropWhile (· == '\n') = c :: l
    rw [List.dropWhile_cons_of_neg (by simpa using hc)]
  | [] :: l' :: ls, h => by
    have ih := drop_newlines (l' :: ls) (fun l hl => h l (List.mem_cons_of_mem _ hl))
    show ('\n' :: joinLF (l' :: ls)).dropWhile (· == '\n') = _
    rw [List.dropWhile_cons_of_pos (by rfl), ih]
    rfl
  | (c :: l) :: l' :: ls, h => by
    have hc : c ≠ '\n' := fun e => h _ List.mem_cons_self (by rw [e]; exact List.mem_cons_self)
    show (c :: (l ++ '\n' :: joinLF (l' :: ls))).dropWhile (· == '\n') = c :: (l ++ '\n' :: joinLF (l' :: ls))
    rw [List.dropWhile_cons_of_neg (by simpa using hc)]

theorem joinLF_reverse : ∀ ls : List Text, (joinLF ls).reverse = joinLF (ls.map List.reverse).reverse
  | [] => rfl
  | [l] => by simp [joinLF]
  | l :: l' :: ls => by
    have ih := joinLF_reverse (l' :: ls)
    show (l ++ '\n' :: joinLF (l' :: ls)).reverse = joinLF (List.reverse (l.reverse :: (l' :: ls).map List.reverse))
    rw [List.reverse_append, List.reverse_cons, ih, List.reverse_cons, C59.joinLF_append _ [l.reverse] (by simp) (fun h => nomatch h)]
    simp [joinLF]

theorem map_dropWhile (p : Text → Bool) (f : Line → Text) : ∀ ls : List Line, (ls.map f).dropWhile p = (ls.dropWhile (fun l => p (f l))).map f
  | [] => rfl
  | l :: ls => by
    have ih := map_dropWhile p f ls
    rw [List.map_cons]
    by_cases h : p (f l) = true
    · rw [List.dropWhile_cons_of_pos h, List.dropWhile_cons_of_pos (by exact h), ih]
    · rw [List.dropWhile_cons_of_neg h, List.dropWhile_cons_of_neg (by exact h)]
      rfl

theorem mem_of_mem_dropWhile {α : Type} {p : α → Bool} {l : List α} {x : α} (h : x ∈ l.dropWhile p) : x ∈ l := (List.dropWhile_sublist p).mem h

/-- The text without the ends of lines at both ends. -/
theorem trim_text {ls : List Line} (h : ∀ l ∈ ls, '\n' ∉ l.text) : Rend.trim (· == '\n') (Prose.text ls) = body ls := by
  unfold Rend.trim Prose.text body
  rw [drop_newlines _ (fun l hl => by obtain ⟨x, hx, rfl⟩ := List.mem_map.mp hl; exact h x hx), map_dropWhile]
  generalize hm : ls.dropWhile (fun l => l.text.isEmpty) = ms
  have hms : ∀ l ∈ ms, '\n' ∉ l.text := fun l hl => h l (mem_of_mem_dropWhile (by rw [hm]; exact hl))
  unfold Rend.trimRight Prose.text
  rw [joinLF_reverse, ← List.map_reverse, List.map_reverse, List.map_map, ← List.map_reverse,
    drop_newlines _ (fun l hl => by
      obtain ⟨x, hx, rfl⟩ := List.mem_map.mp hl
      exact fun hn => hms x (List.mem_reverse.mp hx) (List.mem_reverse.mp hn)), map_dropWhile, joinLF_reverse, List.map_map, ← List.map_reverse]
  have e1 : (fun l : Line => ((List.reverse ∘ Line.text) l).isEmpty) = fun l => l.text.isEmpty := by
    funext l
    show l.text.reverse.isEmpty = l.text.isEmpty
    exact List.isEmpty_reverse
  rw [e1]
  congr 1
  refine List.map_congr_left fun l _ => ?_
  show l.text.reverse.reverse = l.text
  rw [List.reverse_reverse]

/-- A way to write characters that leaves ends of lines alone. -/
structure Writes (f : Char → Text) : Prop where
  newline : f '\n' = ['\n']
  first : ∀ c, c ≠ '\n' → ∃ d x, f c = d :: x ∧ d ≠ '\n'
  last : ∀ c, c ≠ '\n' → ∃ x d, f c = x ++ [d] ∧ d ≠ '\n'

theorem drop_written {f : Char → Text} (hf : Writes f) : ∀ t : Text, (t.flatMap f).dropWhile (· == '\n') = (t.dropWhile (· == '\n')).flatMap f
  | [] => rfl
  | c :: t => by
    have ih := drop_written hf t
    by_cases h : c = '\n'
    · subst h
      rw [List.flatMap_cons, hf.newline, List.dropWhile_cons_of_pos (by rfl), ← ih]
      show ('\n' :: t.flatMap f).dropWhile _ = _
      rw [List.dropWhile_cons_of_pos (by rfl)]
    · obtain ⟨d, x, e, hd⟩ := hf.first c h
      rw [List.dropWhile_cons_of_neg (by simpa using h), List.flatMap_cons, e, List.cons_append, List.dropWhile_cons_of_neg (by simpa using hd)]

theorem flatMap_reverse (f : Char → Text) : ∀ t : Text, (t.flatMap f).reverse = t.reverse.flatMap (fun c => (f c).reverse)
  | [] => rfl
  | c :: t => by
    rw [List.flatMap_cons, List.reverse_append, flatMap_reverse f t, List.reverse_cons, List.flatMap_append]
    simp

theorem writes_reverse {f : Char → Text} (hf : Writes f) : Writes (fun c => (f c).reverse) := by
  constructor
  · show (f '\n').reverse = _
    rw [hf.newline]; rfl
  · intro c hc
    obtain ⟨x, d, e, hd⟩ := hf.last c hc
    exact ⟨d, x.reverse, by rw [e]; simp, hd⟩
  · intro c hc
    obtain ⟨d, x, e, hd⟩ := hf.first c hc
    exact ⟨x.reverse, d, by rw [e]; simp, hd⟩

theorem trim_written {f : Char → Text} (hf : Writes f) (t : Text) : Rend.trim (· == '\n') (t.flatMap f) = (Rend.trim (· == '\n') t).flatMap f := by
  unfold Rend.trim Rend.trimRight
  rw [drop_written hf, flatMap_reverse, drop_written (writes_reverse hf), flatMap_reverse]
  simp

theorem char_writes (u : Bool) : Writes (char u) := ⟨by cases u <;> rfl, C60.char_first u, C60.char_last u⟩

theorem raw_writes (u : Bool) : Writes (raw u) := by
  constructor
  · cases u <;> rfl
  · intro c hc
    unfold raw
    split
    · exact ⟨c, [], rfl, hc⟩
    · exact C60.char_first u c hc
  · intro c hc
    unfold raw
    split
    · exact ⟨[], c, rfl, hc⟩
    · exact C60.char_last u c hc

theorem renderString_raw (u : Bool) : ∀ t : Text, Escape.renderString u t = t.flatMap (raw u)
  | [] => by cases u <;> rfl
  | c :: t => by
    have ih := renderString_raw u t
    have hsplit : Escape.renderString u (c :: t) = Escape.renderString u [c] ++ Escape.renderString u t := by
      cases u with
      | true => rfl
      | false =>
        show (if Escape.plainASCII c then [c] else _) ++ Escape.asciiEntify t = ((if Escape.plainASCII c then [c] else _) ++ []) ++ Escape.asciiEntify t
        rw [List.append_nil]
    rw [hsplit, ih, List.flatMap_cons]
    congr 1
    by_cases hc : PlainText.isSpecial c = true
    · unfold raw
      rw [if_pos hc]
      simp only [PlainText.isSpecial, Bool.or_eq_true, beq_iff_eq] at hc
      rcases hc with (rfl | rfl) | rfl <;> cases u <;> rfl
    · unfold raw
      rw [if_neg hc, C60.renderString_flat u [c] (fun d hd => by rw [List.mem_singleton.mp hd]; simpa using hc)]
      simp

/-! ### Rendering -/

/-- The context, as far as it matters here. -/
structure Fine (u : Bool) (c : Rend.Ctx) : Prop where
  unicode : getBoolD c.attrs "unicode" true = u
  hardbreaks : hasOption c.attrs "hardbreaks" = false
  within : c.within = false
  withinList : c.withinList = 0

/-- An element is rendered to a text; nothing but the counters is changed. -/
def Writes' (m : M Text) (u : Bool) (t : Text) : Prop := ∀ c, Fine u c → ∃ k, m c = .ok (t, { c with counters := k })

theorem fine_counters {u : Bool} {c : Rend.Ctx} (h : Fine u c) (k : AMap Nat) : Fine u { c with counters := k } := ⟨h.1, h.2, h.3, h.4⟩

/-- How the characters of a block are written. -/
def writer (u : Bool) (k : Verbatim) : Char → Text := if k = .pass then raw u else char u

theorem pieces_false : ∀ t : Text, PlainText.pieces false t = if t = [] then [] else [.str t]
  | [] => rfl
  | c :: t => by
    have ih := pieces_false t
    rw [if_neg (fun h => nomatch h)]
    unfold PlainText.pieces
    rw [if_neg (by simp), ih]
    cases t <;> rfl

section
variable {L : Lib} {u : Bool}

theorem lines_show {c : Rend.Ctx} (hu : getBoolD c.attrs "unicode" true = u) (n : Nat) (k : Verbatim) (t : Text) :
    C60.Shows (renderAll (renderElement L (n + 1)) (els (PlainText.pieces (decide (k ≠ .pass)) t))) c (t.flatMap (writer u k)) := by
  by_cases hk : k = .pass
  · subst hk
    rw [show decide (Verbatim.pass ≠ .pass) = false from rfl, pieces_false]
    split
    · next h => subst h; rfl
    · unfold C60.Shows
      show Except.ok (Escape.renderString (getBoolD c.attrs "unicode" true) t ++ [], c) = _
      rw [hu, renderString_raw, List.append_nil]
      rfl
  · rw [show decide (k ≠ .pass) = true from decide_eq_true hk, els_pieces]
    have := C60.shows_all (re := renderElement L (n + 1)) (c := c) (f := C60.elText u) (C60.piece_shows (t := t) hu)
    rw [C60.pieces_flat] at this
    unfold writer
    rw [if_neg hk]
    exact this

theorem writer_writes (k : Verbatim) : Writes (writer u k) := by
  unfold writer
  split
  · exact raw_writes u
  · exact char_writes u

theorem content_trimmed (k : Verbatim) {ls : List Line} (h : ∀ l ∈ ls, '\n' ∉ l.text) :
    Rend.trim (· == '\n') ((Prose.text ls).flatMap (writer u k)) = (body ls).flatMap (writer u k) := by
  rw [trim_written (writer_writes k), trim_text h]

theorem exec_block {L : Lib} {tm : Tmpl.Templates → Tmpl.Tm} {env : Tmpl.Env} {t : Text} {c : Rend.Ctx} (h : (tm L.tmpl).render L.lower env = some t) :
    exec L tm env c = .ok (t, c) := by
  unfold exec
  rw [h]
  rfl

theorem bind_ok {α β : Type} {m : M α} {f : α → M β} {c c' : Rend.Ctx} {a : α} (h : m c = .ok (a, c')) : M.bind m f c = f a c' := by
  unfold M.bind
  rw [h]

theorem inBlock_ok {m : M Text} {c : Rend.Ctx} {t : Text} (h : m { c with within := true } = .ok (t, { c with within := true })) : inBlock m c = .ok (t, c) := by
  show M.bind m _ { c with within := true } = _
  rw [bind_ok h]
  rfl

theorem template {a b t x out : Text} (h : t = x) (e : out = a ++ x ++ b) : some (a ++ (t ++ b)) = some out := by
  rw [e, h, List.append_assoc]

theorem listing_tmpl (lower : Text → Text) (t : Text) : Tmpl.Html5.listingBlockTmpl.render lower (blockEnv [] [] [] t) = some ("<div class=\"listingblock\">\n<div class=\"content\">\n<pre>".toList ++ t ++ "</pre>\n</div>\n</div>\n".toList) := by
  simp [Tmpl.Html5.listingBlockTmpl, Tmpl.Tm.render, Tmpl.Cond.eval, blockEnv, AMap.get, Tmpl.Val.truth, Tmpl.Val.shown, Tmpl.Fn.call, elementID]

theorem literal_tmpl (lower : Text → Text) (t : Text) : Tmpl.Html5.literalBlockTmpl.render lower (blockEnv [] [] [] t) = some ("<div class=\"literalblock\">\n<div class=\"content\">\n<pre>".toList ++ t ++ "</pre>\n</div>\n</div>\n".toList) := by
  simp [Tmpl.Html5.literalBlockTmpl, Tmpl.Tm.render, Tmpl.Cond.eval, blockEnv, AMap.get, Tmpl.Val.truth, Tmpl.Val.shown, Tmpl.Fn.call, elementID]

theorem fenced_tmpl (lower : Text → Text) (t : Text) : Tmpl.Html5.fencedBlockTmpl.render lower (blockEnv [] [] [] t) = some ("<div class=\"listingblock\">\n<div class=\"content\">\n<pre class=\"highlight\"><code>".toList ++ t ++ "</code></pre>\n</div>\n</div>\n".toList) := by
  simp [Tmpl.Html5.fencedBlockTmpl, Tmpl.Tm.render, Tmpl.Cond.eval, blockEnv, AMap.get, Tmpl.Val.truth, Tmpl.Val.shown, Tmpl.Fn.call, elementID]

theorem pass_tmpl (lower : Text → Text) (t : Text) : Tmpl.Html5.passthroughBlock.render lower [("ID", .str (elementID [])), ("Roles", .str []), ("Content", .str t)] = some (t ++ "\n".toList) := by
  simp [Tmpl.Html5.passthroughBlock, Tmpl.Tm.render, Tmpl.Cond.eval, blockEnv, AMap.get, Tmpl.Val.truth, Tmpl.Val.shown, Tmpl.Fn.call, elementID]

theorem sidebar_tmpl (lower : Text → Text) (t : Text) : Tmpl.Html5.sidebarBlockTmpl.render lower (blockEnv [] [] [] t) = some ("<div class=\"sidebarblock\">\n<div class=\"content\">\n".toList ++ t ++ "</div>\n</div>\n".toList) := by
  simp [Tmpl.Html5.sidebarBlockTmpl, Tmpl.Tm.render, Tmpl.Cond.eval, blockEnv, AMap.get, Tmpl.Val.truth, Tmpl.Val.shown, Tmpl.Fn.call, elementID]

theorem open__tmpl (lower : Text → Text) (t : Text) : Tmpl.Html5.openBlockTmpl.render lower (blockEnv [] [] [] t) = some ("<div class=\"openblock\">\n<div class=\"content\">\n".toList ++ t ++ "</div>\n</div>\n".toList) := by
  simp [Tmpl.Html5.openBlockTmpl, Tmpl.Tm.render, Tmpl.Cond.eval, blockEnv, AMap.get, Tmpl.Val.truth, Tmpl.Val.shown, Tmpl.Fn.call, elementID]

theorem quoteEnv_nil (t : Text) : quoteEnv [] [] [] t = ("Attribution.First", .str []) :: ("Attribution.Second", .str []) :: blockEnv [] [] [] t := rfl

theorem quote_tmpl (lower : Text → Text) (t : Text) : Tmpl.Html5.quoteBlockTmpl.render lower (quoteEnv [] [] [] t) = some ("<div class=\"quoteblock\">\n<blockquote>\n".toList ++ t ++ "</blockquote>\n</div>\n".toList) := by
  rw [quoteEnv_nil]
  simp [Tmpl.Html5.quoteBlockTmpl, Tmpl.Tm.render, Tmpl.Cond.eval, blockEnv, AMap.get, Tmpl.Val.truth, Tmpl.Val.shown, Tmpl.Fn.call, elementID]

theorem quotex_tmpl (lower : Text → Text) (t : Text) : Tmpl.Xhtml5.quoteBlockTmpl.render lower (quoteEnv [] [] [] t) = some ("<div class=\"quoteblock\">\n<blockquote>\n".toList ++ t ++ "</blockquote>\n</div>\n".toList) := by
  rw [quoteEnv_nil]
  simp [Tmpl.Xhtml5.quoteBlockTmpl, Tmpl.Tm.render, Tmpl.Cond.eval, blockEnv, AMap.get, Tmpl.Val.truth, Tmpl.Val.shown, Tmpl.Fn.call, elementID]

theorem example_tmpl (lower : Text → Text) (cap t : Text) : Tmpl.Html5.exampleBlockTmpl.render lower (("Caption", .str cap) :: blockEnv [] [] [] t) =
    some ("<div class=\"exampleblock\">\n<div class=\"content\">\n".toList ++ t ++ "</div>\n</div>\n".toList) := by
  simp [Tmpl.Html5.exampleBlockTmpl, Tmpl.Tm.render, Tmpl.Cond.eval, blockEnv, AMap.get, Tmpl.Val.truth, Tmpl.Val.shown, Tmpl.Fn.call, elementID]

theorem verbatim_shows {R : Html.Rules} (hL : L.tmpl = Html.templatesOf R) (n : Nat) (k : Verbatim) {ls : List Line} (h : ∀ l ∈ ls, '\n' ∉ l.text) :
    Writes' (renderElement L (n + 2) (.block (kindOf (verbKind k)) [] (els (PlainText.pieces (decide (k ≠ .pass)) (Prose.text ls))))) u (k.html u ls) := by
  intro c hc
  refine ⟨c.counters, ?_⟩
  have hall := fun (c' : Rend.Ctx) (hu : getBoolD c'.attrs "unicode" true = u) => lines_show (L := L) (c := c') hu n k (Prose.text ls)
  have hx := content_trimmed (u := u) k h
  cases k with
  | listing =>
    refine inBlock_ok ?_
    refine (bind_ok (hall { c with within := true } hc.unicode)).trans ?_
    show exec L (·.listingBlock) _ _ = _
    refine exec_block ?_
    rw [hL, hx]
    obtain ⟨x, o⟩ := R
    cases x <;> exact listing_tmpl _ _
  | literal =>
    refine (bind_ok (hall c hc.unicode)).trans ?_
    show exec L (·.literalBlock) _ _ = _
    refine exec_block ?_
    rw [hL, hx]
    obtain ⟨x, o⟩ := R
    cases x <;> exact literal_tmpl _ _
  | fenced =>
    refine inBlock_ok ?_
    refine (bind_ok (hall { c with within := true } hc.unicode)).trans ?_
    show exec L (·.fencedBlock) _ _ = _
    refine exec_block ?_
    rw [hL, hx]
    obtain ⟨x, o⟩ := R
    cases x <;> exact fenced_tmpl _ _
  | pass =>
    refine inBlock_ok ?_
    refine (bind_ok (hall { c with within := true } hc.unicode)).trans ?_
    show exec L (·.passthroughBlock) _ _ = _
    refine exec_block ?_
    rw [hL, hx]
    obtain ⟨x, o⟩ := R
    cases x <;> exact pass_tmpl _ _

theorem writes_all {n : Nat} : ∀ {es : List (El × Text)}, (∀ p ∈ es, Writes' (renderElement L n p.1) u p.2) →
    Writes' (renderAll (renderElement L n) (es.map Prod.fst)) u (es.flatMap Prod.snd)
  | [], _ => fun c _ => ⟨c.counters, rfl⟩
  | p :: es, h => by
    intro c hc
    obtain ⟨k1, h1⟩ := h p List.mem_cons_self c hc
    obtain ⟨k2, h2⟩ := writes_all (fun x hx => h x (List.mem_cons_of_mem _ hx)) _ (fine_counters hc k1)
    refine ⟨k2, ?_⟩
    rw [List.map_cons]
    refine (bind_ok h1).trans ?_
    refine (bind_ok h2).trans ?_
    rfl

theorem caption_shows (k : Captions.Kind) (c : Rend.Ctx) : ∃ t m, caption k [] c = .ok (t, { c with counters := m }) := by
  unfold caption
  show ∃ t m, (if Captions.containsText k.placeholder (captionText k [] c.attrs) = true then (_ : M Text) else _) c = _
  split
  · exact ⟨_, _, rfl⟩
  · exact ⟨_, c.counters, rfl⟩

theorem compound_shows {R : Html.Rules} (hL : L.tmpl = Html.templatesOf R) (n : Nat) (k : Compound) {es : List El} {t : Text}
    (h : Writes' (renderAll (renderElement L n) es) u t) : Writes' (renderElement L (n + 1) (.block (kindOf (compKind k)) [] es)) u (k.html t) := by
  intro c hc
  obtain ⟨m, hm⟩ := h c hc
  cases k with
  | example_ =>
    obtain ⟨cap, m', hm'⟩ := caption_shows .example { c with counters := m }
    refine ⟨m', (bind_ok hm).trans ?_⟩
    show M.bind (caption .example []) _ _ = _
    refine (bind_ok hm').trans ?_
    show exec L (·.exampleBlock) _ _ = _
    refine exec_block ?_
    rw [hL]
    obtain ⟨x, o⟩ := R
    cases x <;> exact example_tmpl _ _ _
  | sidebar =>
    refine ⟨m, (bind_ok hm).trans ?_⟩
    show exec L (·.sidebarBlock) _ _ = _
    refine exec_block ?_
    rw [hL]
    obtain ⟨x, o⟩ := R
    cases x <;> exact sidebar_tmpl _ _
  | quote =>
    refine ⟨m, (bind_ok hm).trans ?_⟩
    show exec L (·.quoteBlock) _ _ = _
    refine exec_block ?_
    rw [hL]
    obtain ⟨x, o⟩ := R
    cases x
    · exact quote_tmpl _ _
    · exact quotex_tmpl _ _
  | open_ =>
    refine ⟨m, (bind_ok hm).trans ?_⟩
    show exec L (·.openBlock) _ _ = _
    refine exec_block ?_
    rw [hL]
    obtain ⟨x, o⟩ := R
    cases x <;> exact open__tmpl _ _

end

end C62
end Verif
