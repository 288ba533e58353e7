import Verif.Props.SectionRender
import Verif.Props.ListArrange

/-!
# C64, continued — Rendering of lists
-/
namespace Verif
namespace C64
open Listed
open Walk (Any)
open Rend hiding Item bind_ok
open C62 (Fine bind_ok fine_counters Writes' exec_block el els kindAt numberingAt)
open Prose (char)

section
variable {L : Lib} {u : Bool} {alnum : Char → Bool}

/-! ### Templates -/

theorem embedded_tmpl (lower : Text → Text) (t : Text) : Tmpl.Html5.embeddedParagraphTmpl.render lower [("Class", .str []), ("CheckStyle", .str []), ("Content", .str t)] =
    some ("<p>".toList ++ t ++ "</p>\n".toList) := by
  simp [Tmpl.Html5.embeddedParagraphTmpl, Tmpl.Tm.render, Tmpl.Cond.eval, AMap.get, Tmpl.Val.truth, Tmpl.Val.shown, Tmpl.Fn.call]

theorem item_tmpl (lower : Text → Text) (t : Text) : Tmpl.Html5.orderedListElementTmpl.render lower [("Content", .str t)] =
    some ("<li>\n".toList ++ t ++ "</li>\n".toList) := by
  simp [Tmpl.Html5.orderedListElementTmpl, Tmpl.Tm.render, Tmpl.Cond.eval, AMap.get, Tmpl.Val.truth, Tmpl.Val.shown, Tmpl.Fn.call]

theorem bullet_tmpl (lower : Text → Text) (t : Text) : Tmpl.Html5.unorderedListElementTmpl.render lower [("Content", .str t)] =
    some ("<li>\n".toList ++ t ++ "</li>\n".toList) := by
  simp [Tmpl.Html5.unorderedListElementTmpl, Tmpl.Tm.render, Tmpl.Cond.eval, AMap.get, Tmpl.Val.truth, Tmpl.Val.shown, Tmpl.Fn.call]

theorem unordered_tmpl (lower : Text → Text) (t : Text) : Tmpl.Html5.unorderedListTmpl.render lower
    (("Checklist", .flag false) :: ("Style", .str []) :: blockEnv [] [] [] t) = some ("<div class=\"ulist\">\n<ul>\n".toList ++ t ++ "</ul>\n</div>\n".toList) := by
  simp [Tmpl.Html5.unorderedListTmpl, Tmpl.Tm.render, Tmpl.Cond.eval, AMap.get, Tmpl.Val.truth, Tmpl.Val.shown, Tmpl.Fn.call, blockEnv, elementID]

theorem ordered_tmpl (lower : Text → Text) (s ty : Text) (t : Text) : Tmpl.Html5.orderedListTmpl.render lower
    (("Style", .str s) :: ("ListStyle", .str ty) :: ("Start", .str []) :: ("Reversed", .flag false) :: blockEnv [] [] [] t) =
      some ("<div class=\"olist ".toList ++ s ++ "\">\n<ol class=\"".toList ++ s ++ "\"".toList ++ (if ty = [] then [] else " type=\"".toList ++ ty ++ "\"".toList) ++ ">\n".toList ++
        t ++ "</ol>\n</div>\n".toList) := by
  by_cases h : ty = [] <;>
  simp [h, Tmpl.Html5.orderedListTmpl, Tmpl.Tm.render, Tmpl.Cond.eval, AMap.get, Tmpl.Val.truth, Tmpl.Val.shown, Tmpl.Fn.call, blockEnv, elementID]

/-! ### Styles -/

/-- Lists with bullets are unordered. -/
def kindOf : Style → ListKind
  | .bullet _ => .unordered
  | _ => .ordered

theorem kind_label (s : Style) : kindAt (label s) = kindOf s := by
  cases s with
  | bullet k =>
    unfold kindAt label C64.kindOf
    rw [if_neg (by simp only [Actions.unorderedLabel]; omega)]
  | _ => rfl

theorem name_label (s : Style) : numberingAt (label s) = s.name := by
  cases s with
  | bullet k =>
    show numberingAt (6 + k) = []
    unfold numberingAt
    split <;> first | omega | rfl
  | _ => rfl

theorem splitNL_ne : ∀ t : Text, Rend.splitNL t ≠ []
  | [] => fun h => nomatch h
  | c :: t => by
    unfold Rend.splitNL
    split
    · exact fun h => nomatch h
    · split <;> exact fun h => nomatch h

theorem split_chars : ∀ {t : Text}, '\n' ∉ t → ∀ {x : Text}, Rend.splitNL (t ++ x) = match Rend.splitNL x with
    | [] => [t]
    | l :: ls => (t ++ l) :: ls
  | [], _, x => by
    show Rend.splitNL x = _
    cases h : Rend.splitNL x with
    | nil => exact absurd h (splitNL_ne x)
    | cons l ls => rfl
  | c :: t, hc, x => by
    have ih := split_chars (t := t) (fun h => hc (List.mem_cons_of_mem _ h)) (x := x)
    rw [List.cons_append]
    conv => lhs; unfold Rend.splitNL
    rw [if_neg (fun h => hc (by rw [h]; exact List.mem_cons_self)), ih]
    cases h : Rend.splitNL x with
    | nil => rfl
    | cons l ls => rfl

theorem char_newline (u : Bool) {c : Char} (h : c ≠ '\n') : '\n' ∉ char u c := by
  unfold char
  split
  · decide
  · split
    · decide
    · split
      · decide
      · split
        · exact fun hm => h (List.mem_singleton.mp hm).symm
        · intro hm
          simp only [List.mem_append] at hm
          rcases hm with (hm | hm) | hm
          · revert hm; decide
          · have := C63.digits_chars (n := c.toNat) (by rw [show (toString c.toNat).toList = Nat.toDigits 10 c.toNat from Nat.toList_repr]; exact hm)
            revert this; decide
          · revert hm; decide

/-- Ends of lines are kept, and not added. -/
theorem split_written (u : Bool) : ∀ t : Text, '\n' ∉ t → ∀ x, Rend.splitNL (t.flatMap (char u) ++ x) = match Rend.splitNL x with
    | [] => [t.flatMap (char u)]
    | l :: ls => (t.flatMap (char u) ++ l) :: ls
  | [], _, x => by
    show Rend.splitNL x = _
    cases h : Rend.splitNL x with
    | nil => exact absurd h (splitNL_ne x)
    | cons l ls => rfl
  | c :: t, hc, x => by
    have ih := split_written u t (fun h => hc (List.mem_cons_of_mem _ h)) x
    rw [List.flatMap_cons, List.append_assoc, split_chars (char_newline u (fun h => hc (by rw [h]; exact List.mem_cons_self))), ih]
    cases Rend.splitNL x with
    | nil => rfl
    | cons l ls => simp

theorem split_lines (u : Bool) : ∀ ls : List Paragraphs.Line, (∀ l ∈ ls, '\n' ∉ l.text) → ls ≠ [] →
    Rend.splitNL ((Prose.text ls).flatMap (char u)) = ls.map (fun l => l.text.flatMap (char u))
  | [], _, h => absurd rfl h
  | [l], h, _ => by
    have := split_written u l.text (h l List.mem_cons_self) []
    rw [List.append_nil] at this
    refine this.trans ?_
    show [_ ++ []] = _
    rw [List.append_nil]
    rfl
  | l :: l' :: ls, h, _ => by
    have ih := split_lines u (l' :: ls) (fun x hx => h x (List.mem_cons_of_mem _ hx)) (fun h => nomatch h)
    show Rend.splitNL ((l.text ++ '\n' :: Prose.text (l' :: ls)).flatMap (char u)) = _
    rw [List.flatMap_append, List.flatMap_cons, show char u '\n' = ['\n'] by cases u <;> rfl, split_written u l.text (h l List.mem_cons_self)]
    show (l.text.flatMap (char u) ++ []) :: Rend.splitNL ((Prose.text (l' :: ls)).flatMap (char u)) = _
    rw [ih, List.append_nil]
    rfl

theorem join_eq : ∀ ls : List Text, joinWith "\n".toList ls = joinLF ls
  | [] => rfl
  | [l] => rfl
  | l :: l' :: ls => by
    show l ++ ['\n'] ++ joinWith "\n".toList (l' :: ls) = l ++ '\n' :: joinLF (l' :: ls)
    rw [join_eq (l' :: ls), List.append_assoc]
    rfl

theorem trim_lines (u : Bool) : ∀ ls : List Paragraphs.Line, (∀ l ∈ ls, '\n' ∉ l.text) → ls ≠ [] →
    trimSpaces ((Prose.text ls).flatMap (char u)) = joinLF (ls.map (fun l => trim (l.text.flatMap (char u)))) := by
  intro ls h hne
  have e := split_lines u ls h hne
  unfold trimSpaces
  rw [e, List.map_map, join_eq]
  rfl

/-- A paragraph in an item. -/
theorem para_shows {R : Html.Rules} (hL : L.tmpl = Html.templatesOf R) (n : Nat) {e : Entry} (h : e.Ok alnum) {c : Rend.Ctx} (hu : getBoolD c.attrs "unicode" true = u) (hl : c.withinList > 0) :
    renderElement L (n + 2) (el (para e)) c = .ok ("<p>".toList ++ e.html u ++ "</p>\n".toList, c) := by
  have hall := C60.shows_all (re := renderElement L (n + 1)) (c := c) (f := C60.elText u) (C60.piece_shows (t := e.body) hu)
  rw [C60.pieces_flat] at hall
  show renderParagraph L (renderElement L (n + 1)) _ [] (els (PlainText.pieces true e.body)) c = _
  rw [C62.els_pieces]
  unfold renderParagraph
  show (if c.within = true ∨ c.withinList > 0 then (_ : M Text) else _) c = _
  rw [if_pos (.inr hl)]
  unfold embeddedParagraph
  refine (bind_ok hall).trans ?_
  have htr : trimSpaces (e.body.flatMap (char u)) = e.html u := trim_lines u (e.first :: e.more) (fun l hl => by
    have hl : l.Ok := by
      rcases List.mem_cons.mp hl with rfl | hl
      · exact h.one
      · exact (h.more l hl).1
    intro hn
    have := hl.one '\n' (List.mem_append_left _ hn)
    revert this
    decide) (fun h => nomatch h)
  have ht : L.tmpl.embeddedParagraph = Tmpl.Html5.embeddedParagraphTmpl := by
    rw [hL]
    obtain ⟨x, o⟩ := R
    cases x <;> rfl
  refine exec_block ?_
  rw [ht, htr]
  exact embedded_tmpl _ _

/-- What is in an item. -/
theorem inside_shows {R : Html.Rules} (hL : L.tmpl = Html.templatesOf R) (n : Nat) {e : Entry} (h : e.Ok alnum) {es : List El} {t : Text} (hes : Writes' (renderAll (renderElement L (n + 2)) es) u t) :
    Writes' (renderListElements (renderElement L (n + 2)) (el (para e) :: es)) u ("<p>".toList ++ e.html u ++ "</p>\n".toList ++ t) := by
  intro c hc
  obtain ⟨k, hk⟩ := hes c hc
  refine ⟨k, ?_⟩
  have h1 := para_shows (u := u) hL n h (c := { c with withinList := c.withinList + 1 }) hc.unicode (Nat.succ_pos _)
  show M.bind (renderElement L (n + 2) (el (para e))) _ { c with withinList := c.withinList + 1 } = _
  refine (bind_ok h1).trans ?_
  show M.bind (renderAll _ es) _ { c with withinList := c.withinList + 1 - 1 } = _
  refine (bind_ok hk).trans ?_
  rfl

/-- The items of a list. -/
def itemsShow (L : Lib) (re : El → M Text) (k : ListKind) (is : List Rend.Item) : M Text :=
  match k with
  | .ordered => orderedItems L re is
  | _ => unorderedItems L re is

theorem cons_shows {R : Html.Rules} (hL : L.tmpl = Html.templatesOf R) {n : Nat} {s : Style} {es : List El} {st : Text} {is : List Rend.Item} {t t' : Text}
    (h1 : Writes' (renderListElements (renderElement L n) es) u t) (h2 : Writes' (itemsShow L (renderElement L n) (kindOf s) is) u t') :
    Writes' (itemsShow L (renderElement L n) (kindOf s) (.item (kindOf s) es [] st "nocheck".toList 0 :: is)) u ("<li>\n".toList ++ t ++ "</li>\n".toList ++ t') := by
  intro c hc
  obtain ⟨k1, h1⟩ := h1 c hc
  obtain ⟨k2, h2⟩ := h2 _ (fine_counters hc k1)
  refine ⟨k2, ?_⟩
  cases s with
  | bullet k =>
    have ht : L.tmpl.unorderedListElement = Tmpl.Html5.unorderedListElementTmpl := by
      rw [hL]
      obtain ⟨x, o⟩ := R
      cases x <;> rfl
    refine (bind_ok h1).trans ?_
    refine (bind_ok (exec_block (t := "<li>\n".toList ++ t ++ "</li>\n".toList) ?_)).trans ((bind_ok h2).trans rfl)
    rw [ht]
    exact bullet_tmpl _ _
  | _ =>
    have ht : L.tmpl.orderedListElement = Tmpl.Html5.orderedListElementTmpl := by
      rw [hL]
      obtain ⟨x, o⟩ := R
      cases x <;> rfl
    refine (bind_ok h1).trans ?_
    refine (bind_ok (exec_block (t := "<li>\n".toList ++ t ++ "</li>\n".toList) ?_)).trans ((bind_ok h2).trans rfl)
    rw [ht]
    exact item_tmpl _ _

/-- A list, given its items. -/
theorem items_list {R : Html.Rules} (hL : L.tmpl = Html.templatesOf R) {n : Nat} {s : Style} {es : List El} {is : List Rend.Item} {t : Text}
    (h : Writes' (itemsShow L (renderElement L n) (kindOf s) (.item (kindOf s) es [] s.name "nocheck".toList 0 :: is)) u t) :
    Writes' (renderElement L (n + 1) (.list (kindOf s) [] (.item (kindOf s) es [] s.name "nocheck".toList 0 :: is))) u (s.html t) := by
  intro c hc
  obtain ⟨k1, h1⟩ := h c hc
  refine ⟨k1, ?_⟩
  cases s with
  | bullet k =>
    have ht : L.tmpl.unorderedList = Tmpl.Html5.unorderedListTmpl := by
      rw [hL]
      obtain ⟨x, o⟩ := R
      cases x <;> rfl
    show unorderedList L (renderElement L n) [] _ c = _
    unfold unorderedList
    refine (bind_ok (a := false) (c' := c) rfl).trans ((bind_ok h1).trans ?_)
    refine (bind_ok (a := []) (c' := { c with counters := k1 }) rfl).trans ?_
    refine (bind_ok (a := []) (c' := { c with counters := k1 }) rfl).trans ?_
    refine exec_block ?_
    rw [ht]
    exact unordered_tmpl _ _
  | _ =>
    show orderedList L (renderElement L n) [] _ c = _
    unfold orderedList
    refine (bind_ok h1).trans ?_
    refine (bind_ok (a := []) (c' := { c with counters := k1 }) rfl).trans ?_
    refine (bind_ok (a := _) (c' := { c with counters := k1 }) rfl).trans ?_
    refine (bind_ok (a := []) (c' := { c with counters := k1 }) rfl).trans ?_
    refine exec_block ?_
    rw [hL]
    obtain ⟨x, o⟩ := R
    cases x
    · exact ordered_tmpl _ _ _ _
    · exact ordered_tmpl _ _ _ _

mutual
theorem node_shows {R : Html.Rules} (hL : L.tmpl = Html.templatesOf R) {s : Style} {up : List Style} : ∀ {nd : Node}, (∀ e ∈ nd.entries, e.Ok alnum) → nd.Fits up s →
    ∃ N es, C62.items [arrangedItem nd] = [.item (kindOf s) es [] s.name "nocheck".toList 0] ∧
      ∀ n, N ≤ n → ∀ is t, Writes' (itemsShow L (renderElement L n) (kindOf s) is) u t →
        Writes' (itemsShow L (renderElement L n) (kindOf s) (.item (kindOf s) es [] s.name "nocheck".toList 0 :: is)) u (nd.html u ++ t)
  | .node e ns, hok, hf => by
    have hf : e.mark.style = s ∧ (ns ≠ [] → Opens (s :: up) ns) ∧ Fit (s :: up) (styleOf ns) ns := hf
    have he : e.Ok alnum := hok e List.mem_cons_self
    have hns : ∀ e ∈ entries ns, e.Ok alnum := fun x hx => hok x (List.mem_cons_of_mem _ hx)
    obtain ⟨N, hN⟩ := nodes_show hL (up := s :: up) (s := styleOf ns) (ns := ns) hns hf.2.2
    refine ⟨N + 2, el (para e) :: els (if ns.isEmpty then [] else [.group (100 + label (styleOf ns)) [] (arrangedItems ns)]), ?_, fun n hn is t his => ?_⟩
    · show ([_] : List Rend.Item) ++ [] = _
      rw [kind_label, name_label, hf.1]
      rfl
    · obtain ⟨m, rfl⟩ := Nat.exists_eq_add_of_le' (show 2 ≤ n by omega)
      have hin : Writes' (renderAll (renderElement L (m + 2)) (els (if ns.isEmpty then [] else [.group (100 + label (styleOf ns)) [] (arrangedItems ns)]))) u
          (if ns.isEmpty then [] else (styleOf ns).html (itemsHtml u ns)) := by
        cases ns with
        | nil => exact fun c _ => ⟨c.counters, rfl⟩
        | cons nd ns =>
          have := (hN (m + 1) (by omega)).2 nd ns rfl
          show Writes' (renderAll (renderElement L (m + 2)) [el _]) u _
          have h := C62.writes_cons this (show Writes' (renderAll (renderElement L (m + 2)) []) u [] from fun c _ => ⟨c.counters, rfl⟩)
          rw [List.append_nil] at h
          exact h
      have := cons_shows hL (s := s) (st := s.name) (inside_shows hL m he hin) his
      have e1 : "<li>\n<p>".toList = "<li>\n".toList ++ "<p>".toList := by decide
      have e2 : (Node.node e ns).html u = "<li>\n".toList ++ ("<p>".toList ++ e.html u ++ "</p>\n".toList ++ (if ns.isEmpty then [] else (styleOf ns).html (itemsHtml u ns))) ++ "</li>\n".toList := by
        show "<li>\n<p>".toList ++ e.html u ++ "</p>\n".toList ++ (if ns.isEmpty then [] else (styleOf ns).html (itemsHtml u ns)) ++ "</li>\n".toList = _
        rw [e1]
        simp only [List.append_assoc]
      rw [e2]
      exact this
theorem nodes_show {R : Html.Rules} (hL : L.tmpl = Html.templatesOf R) {s : Style} {up : List Style} : ∀ {ns : List Node}, (∀ e ∈ entries ns, e.Ok alnum) → Fit up s ns →
    ∃ N, ∀ n, N ≤ n → Writes' (itemsShow L (renderElement L n) (kindOf s) (C62.items (arrangedItems ns))) u (itemsHtml u ns) ∧
      ∀ nd rest, ns = nd :: rest → Writes' (renderElement L (n + 1) (el (.group (100 + label s) [] (arrangedItems ns)))) u (s.html (itemsHtml u ns))
  | [], _, _ => ⟨0, fun n _ => ⟨fun c _ => ⟨c.counters, by cases s <;> rfl⟩, fun _ _ h => nomatch h⟩⟩
  | nd :: ns, hok, hf => by
    obtain ⟨N1, es, h1, h2⟩ := node_shows hL (nd := nd) (fun e he => hok e (List.mem_append_left _ he)) hf.1
    obtain ⟨N2, h3⟩ := nodes_show hL (ns := ns) (fun e he => hok e (List.mem_append_right _ he)) hf.2
    have e1 : C62.items (arrangedItems (nd :: ns)) = .item (kindOf s) es [] s.name "nocheck".toList 0 :: C62.items (arrangedItems ns) := by
      have h1 : C62.item (arrangedItem nd) ++ [] = [.item (kindOf s) es [] s.name "nocheck".toList 0] := h1
      rw [List.append_nil] at h1
      show C62.item (arrangedItem nd) ++ C62.items (arrangedItems ns) = _
      rw [h1]
      rfl
    refine ⟨max N1 N2, fun n hn => ?_⟩
    have := h2 n (by omega) _ _ (h3 n (by omega)).1
    refine ⟨?_, fun _ _ _ => ?_⟩
    · rw [e1]; exact this
    · show Writes' (renderElement L (n + 1) (if 100 + label s < 100 then _ else El.list (kindAt (100 + label s - 100)) [] (C62.items (arrangedItems (nd :: ns))))) u _
      rw [if_neg (by omega), show 100 + label s - 100 = label s by omega, kind_label, e1]
      exact items_list hL this
end

/-- A list in HTML. -/
theorem list_shows {R : Html.Rules} (hL : L.tmpl = Html.templatesOf R) {nd : Node} {ns : List Node} (h : Listed.Ok alnum (nd :: ns)) : ∃ N, ∀ n, N ≤ n →
    Writes' (renderElement L n (el (arranged (nd :: ns)))) u (Listed.html u (nd :: ns)) := by
  obtain ⟨N, hN⟩ := nodes_show (u := u) hL h.items h.fits
  refine ⟨N + 1, fun n hn => ?_⟩
  obtain ⟨m, rfl⟩ := Nat.exists_eq_add_of_le' (show 1 ≤ n by omega)
  exact (hN m (by omega)).2 nd ns rfl

end

end C64
end Verif
