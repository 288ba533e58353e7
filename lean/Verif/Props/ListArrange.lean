import Verif.Props.ListEnd
import Verif.Props.Composed
import Verif.Props.Lists

/-!
# C64, continued — Items are arranged in the lists that are meant
-/
namespace Verif
namespace C64
open Listed
open Walk (Any)
open Lists (LEl LNode)
open C19 (Path outline places place upTo nested)
open C62 (styleAt nodeOf nodesOf entryOf)

/-- The text of an item after the substitutions. -/
def para (e : Entry) : Any := .paragraph [] (PlainText.pieces true e.body)

/-- An item after the substitutions. -/
def itemContent (e : Entry) : Any := .group (label e.mark.style) [] [para e]

/-- The items after the substitutions. -/
def content (ns : List Node) : Any := .group 0 [] ((entries ns).map itemContent)

mutual
/-- An item after lists are arranged, with the list in it. -/
def arrangedItem : Node → Any
  | .node e ns => .group (label e.mark.style) [] (para e :: (if ns.isEmpty then [] else [.group (100 + label (styleOf ns)) [] (arrangedItems ns)]))
def arrangedItems : List Node → List Any
  | [] => []
  | n :: ns => arrangedItem n :: arrangedItems ns
end

/-- A list after lists are arranged. -/
def arranged (ns : List Node) : Any := .group (100 + label (styleOf ns)) [] (arrangedItems ns)

/-- The style for the arrangement. -/
def sty (s : Style) : Lists.Style := styleAt (label s)

/-- Bullets are those of the code. -/
def Known : Style → Prop
  | .bullet k => k ≤ 5
  | _ => True

theorem known_mark {m : Mark} (h : m.Ok) : Known m.style := by
  cases m with
  | dash => exact Nat.zero_le _
  | stars n => exact h.2
  | dots n =>
    match n, h with
    | 1, _ | 2, _ | 3, _ | 4, _ | 5, _ => trivial
    | 0, _ => trivial
    | n + 6, _ => trivial
  | _ => trivial

/-- The known styles, in a table. -/
def styles : List Style := [.bullet 0, .bullet 1, .bullet 2, .bullet 3, .bullet 4, .bullet 5, .arabic, .lowerAlpha, .lowerRoman, .upperAlpha, .upperRoman]

theorem known_mem {s : Style} (h : Known s) : s ∈ styles := by
  cases s with
  | bullet k =>
    have h : k ≤ 5 := h
    match k, h with
    | 0, _ | 1, _ | 2, _ | 3, _ | 4, _ | 5, _ => decide
  | _ => decide

theorem sty_inj {s t : Style} (hs : Known s) (ht : Known t) (h : sty s = sty t) : s = t := by
  have key : ∀ s ∈ styles, ∀ t ∈ styles, sty s = sty t → s = t := by decide
  exact key s (known_mem hs) t (known_mem ht) h

theorem nested_sty {s t : Style} (hs : Known s) (ht : Known t) (n : Nat) (h : ∀ k j, s = .bullet k → t = .bullet j → k = next j) : nested (some (sty t, n)) (sty s) = sty s := by
  have key : ∀ s ∈ styles, ∀ t ∈ styles, (match s, t with | .bullet k, .bullet j => k = next j | _, _ => True) → nested (some (sty t, 0)) (sty s) = sty s := by
    intro s hs t ht
    simp only [styles, List.mem_cons, List.not_mem_nil, or_false] at hs ht
    rcases hs with rfl | rfl | rfl | rfl | rfl | rfl | rfl | rfl | rfl | rfl | rfl <;>
      rcases ht with rfl | rfl | rfl | rfl | rfl | rfl | rfl | rfl | rfl | rfl | rfl <;> decide
  have hn : nested (some (sty t, n)) (sty s) = nested (some (sty t, 0)) (sty s) := by
    cases sty t <;> cases sty s <;> rfl
  rw [hn]
  refine key s (known_mem hs) t (known_mem ht) ?_
  cases s <;> cases t <;> first | trivial | exact h _ _ rfl rfl

/-! ### Paths -/

/-- None of the open items has one of the styles. -/
def Avoids (ss : List Style) (q : Path) : Prop := ∀ p ∈ q, ∀ s ∈ ss, p.1 ≠ sty s

theorem upTo_none {s : Lists.Style} : ∀ {q : Path}, (∀ p ∈ q, p.1 ≠ s) → upTo s q = none
  | [], _ => rfl
  | p :: q, h => by
    rw [upTo, upTo_none (q := q) (fun x hx => h x (List.mem_cons_of_mem _ hx))]
    exact if_neg (h p List.mem_cons_self)

theorem upTo_last {s : Lists.Style} {m : Nat} {q : Path} (h : ∀ p ∈ q, p.1 ≠ s) : ∀ (p : Path), upTo s (p ++ (s, m) :: q) = some p
  | [] => by
    rw [List.nil_append, upTo, upTo_none h]
    exact if_pos rfl
  | a :: p => by
    rw [List.cons_append, upTo, upTo_last h p]

/-- From the open items `p`, the items `es` add `l` and leave the open items `p'`. -/
def Adds (p : Path) (es : List LEl) (l : List (LNode × Nat)) (p' : Path) : Prop := ∀ rest, places p (es ++ rest) = (places p' rest).map (l ++ ·)

theorem adds_nil (p : Path) : Adds p [] [] p := fun rest => by
  rw [List.nil_append]
  show _ = (places p rest).map (fun x => x)
  rw [Option.map_id']

theorem adds_append {p p' p'' : Path} {es es' : List LEl} {l l' : List (LNode × Nat)} (h : Adds p es l p') (h' : Adds p' es' l' p'') : Adds p (es ++ es') (l ++ l') p'' := by
  intro rest
  rw [List.append_assoc, h, h', Option.map_map]
  congr 1
  funext x
  simp

theorem adds_one {p p' : Path} {e : LEl} {l : List (LNode × Nat)} (h : place p e = some (l, p')) : Adds p [e] l p' := by
  intro rest
  show places p (e :: rest) = _
  rw [places, h]

variable (num : Any → Nat)

/-- An item for the arrangement. -/
def given (e : Entry) : LEl := .item (sty e.mark.style) (num (itemContent e))

/-- The forest below an item. -/
def below (ns : List Node) : Forest LNode := if ns.isEmpty then .nil else .cons (.list (sty (styleOf ns))) (nodesOf num (arrangedItems ns)) .nil

theorem label_lt {s : Style} (h : Known s) : label s < 100 := by
  have key : ∀ s ∈ styles, label s < 100 := by decide
  exact key s (known_mem h)

theorem nodes_cons {e : Entry} (he : Known e.mark.style) (ns rest : List Node) : nodesOf num (arrangedItems (.node e ns :: rest)) =
    .cons (.item (sty e.mark.style) (num (itemContent e))) (below num ns) (nodesOf num (arrangedItems rest)) := by
  have hl := label_lt he
  show Forest.cons (if label e.mark.style < 100 then _ else _) (nodesOf num (para e :: (if ns.isEmpty then [] else [.group (100 + label (styleOf ns)) [] (arrangedItems ns)]))) _ = _
  rw [if_pos hl]
  cases ns with
  | nil => rfl
  | cons n ns =>
    have h2 : ¬ 100 + label (styleOf (n :: ns)) < 100 := by omega
    have h3 : 100 + label (styleOf (n :: ns)) - 100 = label (styleOf (n :: ns)) := by omega
    have hu : List.filter C62.unlisted (para e :: [.group (100 + label (styleOf (n :: ns))) [] (arrangedItems (n :: ns))]) = [para e] := by
      rw [List.filter_cons_of_pos rfl, List.filter_cons_of_neg, List.filter_nil]
      intro h
      exact h2 (of_decide_eq_true h)
    show Forest.cons (.item _ (num (.group _ [] (List.filter C62.unlisted (para e :: [.group (100 + label (styleOf (n :: ns))) [] (arrangedItems (n :: ns))])))))
      (Forest.cons (if 100 + label (styleOf (n :: ns)) < 100 then _ else LNode.list (styleAt (100 + label (styleOf (n :: ns)) - 100))) _ .nil) _ = _
    rw [hu, if_neg h2, h3]
    rfl

theorem given_entry (e : Entry) : entryOf num (itemContent e) = given num e := rfl

/-- The items of a list, for the arrangement. -/
def givens (ns : List Node) : List LEl := (entries ns).map (given num)

theorem givens_cons (e : Entry) (ns rest : List Node) : givens num (.node e ns :: rest) = [given num e] ++ (givens num ns ++ givens num rest) := by
  unfold givens
  rw [entries, Node.entries]
  simp

mutual
/-- An item that opens a list, and what follows. -/
theorem opened {up : List Style} {p : Path} (hp : p.map Prod.fst = (up.map sty).reverse) (hup : ∀ s ∈ up, Known s) : ∀ (ns : List Node), (∀ e ∈ entries ns, e.mark.Ok) →
    (ns ≠ [] → Opens up ns) → Fit up (styleOf ns) ns →
    ∃ q, Avoids up q ∧ Adds p (givens num ns) (outline (2 * p.length) (below num ns)) (p ++ q)
  | [], _, _, _ => ⟨[], (fun _ h => nomatch h), by rw [List.append_nil]; exact adds_nil p⟩
  | .node e ns :: rest, hk, ho, hf => by
    obtain ⟨hnew, hnext⟩ := ho (fun h => nomatch h)
    have hs : styleOf (.node e ns :: rest) = e.mark.style := rfl
    rw [hs] at hnew hnext hf
    obtain ⟨⟨_, ho1, hf1⟩, hf2⟩ := (show (e.mark.style = e.mark.style ∧ (ns ≠ [] → Opens (e.mark.style :: up) ns) ∧ Fit (e.mark.style :: up) (styleOf ns) ns) ∧ Fit up e.mark.style rest from hf)
    have hke : Known e.mark.style := known_mark (hk e (by rw [entries, Node.entries]; simp))
    have hn : upTo (sty e.mark.style) p = none := upTo_none fun x hx heq => by
      have : x.1 ∈ p.map Prod.fst := List.mem_map_of_mem hx
      rw [hp, List.mem_reverse] at this
      obtain ⟨s, hs, hse⟩ := List.mem_map.mp this
      exact hnew (sty_inj (hup s hs) hke (hse.trans heq) ▸ hs)
    have hnest : nested p.getLast? (sty e.mark.style) = sty e.mark.style := by
      cases hl : p.getLast? with
      | none => cases sty e.mark.style <;> rfl
      | some x =>
        have h1 : (p.map Prod.fst).getLast? = some x.1 := by rw [List.getLast?_map, hl]; rfl
        rw [hp, List.getLast?_reverse] at h1
        cases up with
        | nil => cases h1
        | cons s up =>
          obtain ⟨x1, x2⟩ := x
          have h1 : sty s = x1 := by simpa using h1
          rw [← h1]
          exact nested_sty hke (hup s List.mem_cons_self) _ (fun k j hk hj => hnext k j hk (by rw [hj]; rfl))
    have hpl : place p (given num e) = some ([(.list (sty e.mark.style), 2 * p.length), (.item (sty e.mark.style) (num (itemContent e)), 2 * p.length + 1)],
        p ++ [(sty e.mark.style, num (itemContent e))]) := by
      unfold given place
      dsimp only
      rw [hn]
      dsimp only
      rw [hnest]
    obtain ⟨q1, ha1, h1⟩ := opened (up := e.mark.style :: up) (p := p ++ [(sty e.mark.style, num (itemContent e))]) (by simp [hp]) (by
      intro s hs
      rcases List.mem_cons.mp hs with rfl | hs
      · exact hke
      · exact hup s hs) ns (fun x hx => hk x (by rw [entries, Node.entries]; simp [hx])) ho1 hf1
    obtain ⟨m', q2, ha2, h2⟩ := continued hp hup hke hnew rest (num (itemContent e)) q1 (fun x hx => hk x (by rw [entries, Node.entries]; simp [hx])) hf2 ha1
    refine ⟨(sty e.mark.style, m') :: q2, ?_, ?_⟩
    · intro x hx s hs
      rcases List.mem_cons.mp hx with rfl | hx
      · exact fun he => hnew (sty_inj hke (hup s hs) he ▸ hs)
      · exact ha2 x hx s (List.mem_cons_of_mem _ hs)
    · rw [givens_cons]
      have e1 : p ++ [(sty e.mark.style, num (itemContent e))] ++ q1 = p ++ (sty e.mark.style, num (itemContent e)) :: q1 := by simp
      rw [e1] at h1
      have := adds_append (adds_one hpl) (adds_append h1 h2)
      have hb : below num (.node e ns :: rest) = .cons (.list (sty e.mark.style)) (nodesOf num (arrangedItems (.node e ns :: rest))) .nil := rfl
      rw [hb, nodes_cons num hke]
      have hl : 2 * (p ++ [(sty e.mark.style, num (itemContent e))]).length = 2 * p.length + 1 + 1 := by simp; omega
      rw [hl] at this
      simp only [outline, List.append_nil]
      exact this
/-- More items of the innermost list, or one around it. -/
theorem continued {up : List Style} {s : Style} {p : Path} (hp : p.map Prod.fst = (up.map sty).reverse) (hup : ∀ s ∈ up, Known s) (hs : Known s) (hnew : s ∉ up) : ∀ (ns : List Node)
    (m : Nat) (q : Path), (∀ e ∈ entries ns, e.mark.Ok) → Fit up s ns → Avoids (s :: up) q →
    ∃ m' q', Avoids (s :: up) q' ∧ Adds (p ++ (sty s, m) :: q) (givens num ns) (outline (2 * p.length + 1) (nodesOf num (arrangedItems ns))) (p ++ (sty s, m') :: q')
  | [], m, q, _, _, hq => ⟨m, q, hq, adds_nil _⟩
  | .node e ns :: rest, m, q, hk, hf, hq => by
    obtain ⟨⟨hes, ho1, hf1⟩, hf2⟩ := (show (e.mark.style = s ∧ (ns ≠ [] → Opens (s :: up) ns) ∧ Fit (s :: up) (styleOf ns) ns) ∧ Fit up s rest from hf)
    subst hes
    have hpl : place (p ++ (sty e.mark.style, m) :: q) (given num e) = some ([(.item (sty e.mark.style) (num (itemContent e)), 2 * p.length + 1)],
        p ++ [(sty e.mark.style, num (itemContent e))]) := by
      unfold given place
      dsimp only
      rw [upTo_last (fun x hx => hq x hx _ List.mem_cons_self)]
    obtain ⟨q1, ha1, h1⟩ := opened (up := e.mark.style :: up) (p := p ++ [(sty e.mark.style, num (itemContent e))]) (by simp [hp]) (by
      intro s hs'
      rcases List.mem_cons.mp hs' with rfl | hs'
      · exact hs
      · exact hup s hs') ns (fun x hx => hk x (by rw [entries, Node.entries]; simp [hx])) ho1 hf1
    obtain ⟨m', q2, ha2, h2⟩ := continued hp hup hs hnew rest (num (itemContent e)) q1 (fun x hx => hk x (by rw [entries, Node.entries]; simp [hx])) hf2 ha1
    refine ⟨m', q2, ha2, ?_⟩
    rw [givens_cons]
    have e1 : p ++ [(sty e.mark.style, num (itemContent e))] ++ q1 = p ++ (sty e.mark.style, num (itemContent e)) :: q1 := by simp
    rw [e1] at h1
    have := adds_append (adds_one hpl) (adds_append h1 h2)
    rw [nodes_cons num hs]
    have hl : 2 * (p ++ [(sty e.mark.style, num (itemContent e))]).length = 2 * p.length + 1 + 1 := by simp; omega
    rw [hl] at this
    simp only [outline]
    exact this
end

/-- Lists are arranged as they are meant. -/
theorem arrange_list {alnum : Char → Bool} {ns : List Node} (h : Ok alnum ns) : Lists.arrangeEl (C62.listOf num (content ns)) = some (C62.arrangedOf num (arranged ns)) := by
  obtain ⟨e, b, rest, rfl, _⟩ := h.first
  obtain ⟨q, _, hq⟩ := opened num (up := []) (p := []) rfl (fun _ h => nomatch h) (.node e b :: rest) (fun e he => (h.items e he).mark)
    (fun _ => ⟨List.not_mem_nil, fun _ _ _ h => nomatch h⟩) h.fits
  have hq := hq []
  rw [List.append_nil] at hq
  have ha := C19.arranged (givens num (.node e b :: rest))
  rw [hq] at ha
  have hl : C62.listOf num (content (.node e b :: rest)) = .lists (givens num (.node e b :: rest)) := by
    show Lists.BEl.lists (((entries (.node e b :: rest)).map itemContent).map (entryOf num)) = _
    rw [List.map_map]
    rfl
  rw [hl]
  show (Lists.arrange (givens num (.node e b :: rest))).map Lists.AEl.list = _
  cases hr : Lists.arrange (givens num (.node e b :: rest)) with
  | none => rw [hr] at ha; cases ha
  | some f =>
    rw [hr] at ha
    have hf : f = below num (.node e b :: rest) := C19.outline_inj _ _ 0 (by
      have h1 : C19.outline 0 f = C19.outline 0 (below num (.node e b :: rest)) ++ [] := Option.some.inj ha
      rw [List.append_nil] at h1
      exact h1)
    rw [hf]
    have h2 : ¬ 100 + label (styleOf (.node e b :: rest)) < 100 := by omega
    have h3 : 100 + label (styleOf (.node e b :: rest)) - 100 = label (styleOf (.node e b :: rest)) := by omega
    show some (Lists.AEl.list _) = some (if 100 + label (styleOf (.node e b :: rest)) < 100 then _ else Lists.AEl.list (.cons
      (if 100 + label (styleOf (.node e b :: rest)) < 100 then _ else LNode.list (styleAt (100 + label (styleOf (.node e b :: rest)) - 100))) (nodesOf num (arrangedItems (.node e b :: rest))) .nil))
    rw [if_neg h2, if_neg h2, h3]
    rfl

end C64
end Verif
