import Verif.Props.Sectioned
import Verif.Spec.Outlined

/-!
# C68 — The table of contents: how it is built and rendered
-/
namespace Verif
namespace C68
open Sectioned (Heading Item)
open Outlined
open Rend hiding Item bind_ok
open C62 (Fine bind_ok)
open Prose (char)

/-! ### The tree -/

/-- The level of an entry. -/
def lvl (x : Heading × Text) : Nat := x.1.level

/-- An entry of the table of contents. -/
def mark (x : Heading × Text) : Verif.Toc := ⟨x.2, x.1.level⟩

/-- The entries, each one with those below it. -/
def grown : List (Heading × Text) → Forest Verif.Toc
  | [] => .nil
  | x :: xs => .cons (mark x) (grown (xs.takeWhile (below x.1.level))) (grown (xs.dropWhile (below x.1.level)))
termination_by xs => xs.length
decreasing_by
  · have := Sectioned.takeWhile_length (below x.1.level) xs; simp only [List.length_cons]; omega
  · have := Sectioned.dropWhile_length (below x.1.level) xs; simp only [List.length_cons]; omega

theorem steps_tail {a : Nat} {ls : List Nat} (h : Steps (a :: ls)) : Steps ls := by
  cases ls with
  | nil => trivial
  | cons b ls => exact h.2

theorem steps_right : ∀ {as bs : List Nat}, Steps (as ++ bs) → Steps bs
  | [], _, h => h
  | _ :: as, _, h => steps_right (as := as) (steps_tail h)

theorem steps_left : ∀ {as bs : List Nat}, Steps (as ++ bs) → Steps as
  | [], _, _ => trivial
  | [_], _, _ => trivial
  | _ :: b :: as, _, h => ⟨h.1, steps_left (as := b :: as) h.2⟩

theorem take_all {α : Type} {p : α → Bool} : ∀ {l : List α}, l.dropWhile p = [] → l.takeWhile p = l ∧ ∀ x ∈ l, p x = true
  | [], _ => ⟨rfl, fun _ h => nomatch h⟩
  | x :: l, h => by
    cases hp : p x with
    | false => rw [List.dropWhile_cons_of_neg (by rw [hp]; decide)] at h; cases h
    | true =>
      rw [List.dropWhile_cons_of_pos hp] at h
      obtain ⟨h1, h2⟩ := take_all h
      refine ⟨by rw [List.takeWhile_cons_of_pos hp, h1], fun y hy => ?_⟩
      rcases List.mem_cons.mp hy with rfl | hy
      · exact hp
      · exact h2 y hy

theorem take_some {α : Type} {p : α → Bool} {y : α} {d : List α} : ∀ {l : List α}, l.dropWhile p = y :: d → p y = false ∧ ∀ z, (l ++ z).takeWhile p = l.takeWhile p ∧ (l ++ z).dropWhile p = y :: d ++ z
  | [], h => by cases h
  | x :: l, h => by
    cases hp : p x with
    | false =>
      have hn : ¬ p x = true := by rw [hp]; decide
      rw [List.dropWhile_cons_of_neg hn] at h
      obtain ⟨rfl, rfl⟩ := List.cons.inj h
      refine ⟨hp, fun z => ⟨?_, ?_⟩⟩
      · rw [List.cons_append, List.takeWhile_cons_of_neg hn, List.takeWhile_cons_of_neg hn]
      · rw [List.cons_append, List.dropWhile_cons_of_neg hn]
    | true =>
      rw [List.dropWhile_cons_of_pos hp] at h
      obtain ⟨h1, h2⟩ := take_some h
      refine ⟨h1, fun z => ⟨?_, ?_⟩⟩
      · rw [List.cons_append, List.takeWhile_cons_of_pos hp, List.takeWhile_cons_of_pos hp, (h2 z).1]
      · rw [List.cons_append, List.dropWhile_cons_of_pos hp, (h2 z).2]

theorem level_eq (x y : Heading × Text) : ((mark x).level = (mark y).level) ↔ lvl x = lvl y := by
  show ((x.1.level : Int) = y.1.level) ↔ x.1.level = y.1.level
  omega

/-- A section is added below the nearest one before it with a smaller level. -/
theorem grow {m : Int} {x : Heading × Text} (hx : (x.1.level : Int) ≤ m) : ∀ (n : Nat) (xs : List (Heading × Text)), xs.length ≤ n →
    (∀ f ∈ xs.head?, ∀ y ∈ xs ++ [x], lvl f ≤ lvl y) → Steps ((xs ++ [x]).map lvl) → tocAdd m (mark x) (grown xs) = grown (xs ++ [x])
  | _, [], _, _, _ => by
    have e : tocAdd m (mark x) .nil = .cons (mark x) .nil .nil := if_neg (by show ¬ (m < (x.1.level : Int)); omega)
    rw [show grown ([] ++ [x]) = _ from grown.eq_2 x [], grown, e]
    rw [List.takeWhile_nil, List.dropWhile_nil, grown]
  | n + 1, f :: rest, hn, hlow, hst => by
    have hn' : rest.length ≤ n := by simpa using hn
    have hlow : ∀ y ∈ f :: (rest ++ [x]), lvl f ≤ lvl y := hlow f rfl
    have hstt : Steps ((rest ++ [x]).map lvl) := steps_tail hst
    have hadd : ∀ (k r : Forest Verif.Toc), tocAdd m (mark x) (.cons (mark f) k r) =
        if lvl x = lvl f then Forest.snoc (mark x) (.cons (mark f) k r) else tocAddBelow (mark x) (.cons (mark f) k r) := by
      intro k r
      have : tocAdd m (mark x) (.cons (mark f) k r) = if (mark x).level = (mark f).level then _ else _ := if_neg (by show ¬ (m < (x.1.level : Int)); omega)
      rw [this]
      by_cases h : lvl x = lvl f
      · rw [if_pos h, if_pos ((level_eq x f).mpr h)]
      · rw [if_neg h, if_neg (fun e => h ((level_eq x f).mp e))]
    rw [show (f :: rest) ++ [x] = f :: (rest ++ [x]) from rfl, grown, grown, hadd]
    have hxf : lvl f ≤ lvl x := hlow x (List.mem_cons_of_mem _ (List.mem_append_right _ List.mem_cons_self))
    cases hd : rest.dropWhile (below f.1.level) with
    | nil =>
      obtain ⟨ht, hall⟩ := take_all hd
      rw [ht, grown]
      by_cases h : lvl x = lvl f
      · have hbx : below f.1.level x = false := by
          unfold below; exact decide_eq_false (by show ¬ lvl f < lvl x; omega)
        have e1 : (rest ++ [x]).takeWhile (below f.1.level) = rest := by
          rw [List.takeWhile_append_of_pos hall, List.takeWhile_cons_of_neg (by rw [hbx]; decide), List.append_nil]
        have e2 : (rest ++ [x]).dropWhile (below f.1.level) = [x] := by
          rw [List.dropWhile_append_of_pos hall, List.dropWhile_cons_of_neg (by rw [hbx]; decide)]
        rw [if_pos h, e1, e2, grown.eq_2 x [], List.takeWhile_nil, List.dropWhile_nil, grown]
        rfl
      · have hbx : below f.1.level x = true := by
          unfold below; exact decide_eq_true (by show lvl f < lvl x; omega)
        have hall' : ∀ y ∈ rest ++ [x], below f.1.level y = true := by
          intro y hy
          rcases List.mem_append.mp hy with hy | hy
          · exact hall y hy
          · rw [List.mem_singleton.mp hy]; exact hbx
        have e1 : (rest ++ [x]).takeWhile (below f.1.level) = rest ++ [x] := by
          have := List.takeWhile_append_of_pos (l₂ := []) hall'
          rwa [List.append_nil, List.takeWhile_nil, List.append_nil] at this
        have e2 : (rest ++ [x]).dropWhile (below f.1.level) = [] := by
          have := List.dropWhile_append_of_pos (l₂ := []) hall'
          rwa [List.append_nil, List.dropWhile_nil] at this
        rw [if_neg h, e1, e2]
        have ih := grow hx n rest hn' ?_ hstt
        · rw [← ih]
          cases rest with
          | nil =>
            rw [grown]
            show Forest.cons _ (Forest.cons _ .nil .nil) .nil = _
            have e : tocAdd m (mark x) .nil = .cons (mark x) .nil .nil := if_neg (by show ¬ (m < (x.1.level : Int)); omega)
            rw [e]
          | cons g r =>
            rw [grown, grown]
            show (if (mark g).level = (mark x).level then Forest.cons (mark f) (Forest.snoc (mark x) _) Forest.nil else Forest.cons (mark f) (tocAddBelow (mark x) _) Forest.nil) = _
            have hadd' : ∀ (k r : Forest Verif.Toc), tocAdd m (mark x) (.cons (mark g) k r) =
                if lvl x = lvl g then Forest.snoc (mark x) (.cons (mark g) k r) else tocAddBelow (mark x) (.cons (mark g) k r) := by
              intro k r
              have : tocAdd m (mark x) (.cons (mark g) k r) = if (mark x).level = (mark g).level then _ else _ := if_neg (by show ¬ (m < (x.1.level : Int)); omega)
              rw [this]
              by_cases h : lvl x = lvl g
              · rw [if_pos h, if_pos ((level_eq x g).mpr h)]
              · rw [if_neg h, if_neg (fun e => h ((level_eq x g).mp e))]
            rw [hadd']
            by_cases hg : lvl x = lvl g
            · rw [if_pos hg, if_pos ((level_eq g x).mpr hg.symm)]
            · rw [if_neg hg, if_neg (fun e => hg ((level_eq g x).mp e).symm)]
        · intro g hg y hy
          have hgm : g ∈ rest := List.mem_of_mem_head? hg
          have hfg : lvl g ≤ lvl f + 1 := by
            cases rest with
            | nil => cases hg
            | cons g' r => cases hg; exact hst.1
          have : lvl f < lvl y := of_decide_eq_true (hall' y hy)
          omega
    | cons g d =>
      obtain ⟨hg, htd⟩ := take_some hd
      obtain ⟨e1, e2⟩ := htd [x]
      have hgm : g ∈ rest := (List.dropWhile_sublist _).mem (by rw [hd]; exact List.mem_cons_self)
      have hgf : lvl g = lvl f := by
        have h1 : ¬ lvl f < lvl g := of_decide_eq_false hg
        have h2 := hlow g (List.mem_cons_of_mem _ (List.mem_append_left _ hgm))
        omega
      have hsub : ∀ y ∈ g :: d, y ∈ rest := fun y hy => (List.dropWhile_sublist _).mem (by rw [hd]; exact hy)
      have hsplit : rest = rest.takeWhile (below f.1.level) ++ g :: d := by
        rw [← hd]; exact (List.takeWhile_append_dropWhile).symm
      have ih := grow hx n (g :: d) (Nat.le_trans (by rw [← hd]; exact (List.dropWhile_sublist _).length_le) hn') ?_ ?_
      · rw [e1, e2, ← ih, grown]
        have hadd' : ∀ (k r : Forest Verif.Toc), tocAdd m (mark x) (.cons (mark g) k r) =
            if lvl x = lvl g then Forest.snoc (mark x) (.cons (mark g) k r) else tocAddBelow (mark x) (.cons (mark g) k r) := by
          intro k r
          have : tocAdd m (mark x) (.cons (mark g) k r) = if (mark x).level = (mark g).level then _ else _ := if_neg (by show ¬ (m < (x.1.level : Int)); omega)
          rw [this]
          by_cases h : lvl x = lvl g
          · rw [if_pos h, if_pos ((level_eq x g).mpr h)]
          · rw [if_neg h, if_neg (fun e => h ((level_eq x g).mp e))]
        rw [hadd', hgf]
        by_cases h : lvl x = lvl f
        · rw [if_pos h, if_pos h]; rfl
        · rw [if_neg h, if_neg h]
          generalize grown (rest.takeWhile (below f.1.level)) = k
          cases k <;> rfl
      · intro g' hg' y hy
        cases hg'
        rw [hgf]
        refine hlow y (List.mem_cons_of_mem _ ?_)
        rcases List.mem_append.mp hy with hy | hy
        · exact List.mem_append_left _ (hsub y hy)
        · exact List.mem_append_right _ hy
      · rw [hsplit, List.append_assoc, List.map_append] at hstt
        exact steps_right hstt

theorem fold_grown {m : Int} : ∀ (xs pre : List (Heading × Text)),
    Gapless ((pre ++ xs.filter (fun x => decide ((x.1.level : Int) ≤ m))).map lvl) →
    (xs.map mark).foldl (fun f t => tocAdd m t f) (grown pre) = grown (pre ++ xs.filter (fun x => decide ((x.1.level : Int) ≤ m)))
  | [], pre, _ => by rw [List.filter_nil, List.append_nil]; rfl
  | x :: xs, pre, h => by
    rw [List.map_cons, List.foldl_cons]
    by_cases hx : (x.1.level : Int) ≤ m
    · rw [List.filter_cons_of_pos (by exact decide_eq_true hx), show pre ++ x :: xs.filter (fun x => decide ((x.1.level : Int) ≤ m)) =
        (pre ++ [x]) ++ xs.filter (fun x => decide ((x.1.level : Int) ≤ m)) by simp] at h ⊢
      rw [grow hx _ pre (Nat.le_refl _) ?_ ?_]
      · exact fold_grown xs (pre ++ [x]) h
      · intro f hf y hy
        refine h.1 (lvl f) ?_ (lvl y) ?_
        · cases pre with
          | nil => cases hf
          | cons g pre => cases hf; rfl
        · exact List.mem_map.mpr ⟨y, List.mem_append_left _ hy, rfl⟩
      · have := h.2
        rw [List.map_append] at this
        exact steps_left this
    · rw [List.filter_cons_of_neg (by simpa using hx)] at h ⊢
      rw [show tocAdd m (mark x) (grown pre) = grown pre from if_pos (by show m < (x.1.level : Int); omega)]
      exact fold_grown xs pre h

/-! ### Titles -/

section
variable {L : Lib} {u : Bool}

/-- The entries, with the titles. -/
def titled (u : Bool) : List (Heading × Text) → List Rend.Toc
  | [] => []
  | x :: xs => .entry x.2 x.1.level (x.1.title.flatMap (char u)) [] (titled u (xs.takeWhile (below x.1.level))) :: titled u (xs.dropWhile (below x.1.level))
termination_by xs => xs.length
decreasing_by
  · have := Sectioned.takeWhile_length (below x.1.level) xs; simp only [List.length_cons]; omega
  · have := Sectioned.dropWhile_length (below x.1.level) xs; simp only [List.length_cons]; omega

/-- The titles are those of the sections. -/
theorem prerender (k : Nat) {c : Rend.Ctx} (hc : Fine u c) (hn : c.numbers = []) : ∀ (n : Nat) (xs : List (Heading × Text)), xs.length ≤ n →
    (∀ x ∈ xs, x.1.Ok ∧ c.refs.lookup x.2 = some (.els [.str x.1.title])) →
    prerenderSections (renderElement L (k + 1)) (C63.backToc (grown xs)) c = .ok (titled u xs, c)
  | _, [], _, _ => by rw [grown, titled]; rfl
  | n + 1, x :: xs, hl, hx => by
    have hl' : xs.length ≤ n := by simpa using hl
    have h1 := prerender k hc hn n (xs.takeWhile (below x.1.level)) (Nat.le_trans (Sectioned.takeWhile_length _ _) hl')
      (fun y hy => hx y (List.mem_cons_of_mem _ ((List.takeWhile_sublist _).mem hy)))
    have h2 := prerender k hc hn n (xs.dropWhile (below x.1.level)) (Nat.le_trans (Sectioned.dropWhile_length _ _) hl')
      (fun y hy => hx y (List.mem_cons_of_mem _ ((List.dropWhile_sublist _).mem hy)))
    obtain ⟨hok, href⟩ := hx x List.mem_cons_self
    have he : prerenderEntry (renderElement L (k + 1)) (.entry x.2 x.1.level [] [] (C63.backToc (grown (xs.takeWhile (below x.1.level))))) c =
        .ok (.entry x.2 x.1.level (x.1.title.flatMap (char u)) [] (titled u (xs.takeWhile (below x.1.level))), c) := by
      refine (bind_ok h1).trans ?_
      show (match c.refs.lookup x.2 with
        | some (.els l) => (_ : M Rend.Toc)
        | _ => _) c = _
      rw [href]
      have ht : renderAll (renderElement L (k + 1)) [.str x.1.title] c = .ok (x.1.title.flatMap (char u), c) := by
        show Except.ok (Escape.renderString (getBoolD c.attrs "unicode" true) x.1.title ++ [], c) = _
        rw [hc.unicode, C60.renderString_flat u _ (C63.title_special hok), List.append_nil]
      refine (bind_ok ht).trans ?_
      show Except.ok (Rend.Toc.entry x.2 x.1.level _ ((c.numbers.lookup x.2).getD []) _, c) = _
      rw [hn]
      rfl
    rw [grown, titled]
    exact (bind_ok he).trans ((bind_ok h2).trans rfl)

/-! ### Rendering -/

theorem entry_tmpl (lower : Text → Text) (h : Heading) (id t : Text) : Tmpl.Html5.tocEntryTmpl.render lower
    [("Number", .str []), ("ID", .str id), ("Title", .str (h.title.flatMap (char u))), ("Content", .str t)] = some (entry lower u h id t) := by
  unfold entry
  generalize h.title.flatMap (char u) = x
  by_cases ht : t = []
  · subst ht
    simp [Tmpl.Html5.tocEntryTmpl, Tmpl.Tm.render, Tmpl.Cond.eval, AMap.get, Tmpl.Val.truth, Tmpl.Val.shown, Tmpl.Fn.call]
  · simp [Tmpl.Html5.tocEntryTmpl, Tmpl.Tm.render, Tmpl.Cond.eval, AMap.get, Tmpl.Val.truth, Tmpl.Val.shown, Tmpl.Fn.call, ht]

theorem section_tmpl (lower : Text → Text) (l : Nat) (t : Text) : Tmpl.Html5.tocSectionTmpl.render lower [("Level", .num (l : Int)), ("Content", .str t)] = some (list l t) := by
  have e : (l : Int).repr.toList = Nat.toDigits 10 l := Nat.toList_repr (n := l)
  unfold list
  simp [Tmpl.Html5.tocSectionTmpl, Tmpl.Tm.render, AMap.get, Tmpl.Val.shown, Tmpl.Fn.call, e]

theorem root_tmpl (lower : Text → Text) (title t : Text) : Tmpl.Html5.tocRootTmpl.render lower [("Title", .str title), ("Sections", .str t)] =
    some ("<div id=\"toc\" class=\"toc\">\n<div id=\"toctitle\">".toList ++ title ++ "</div>\n".toList ++ t ++ "</div>\n".toList) := by
  simp [Tmpl.Html5.tocRootTmpl, Tmpl.Tm.render, AMap.get, Tmpl.Val.shown, Tmpl.Fn.call]

theorem sections_eq {c c' : Rend.Ctx} {id t x num : Text} {l : Int} {kids rest : List Rend.Toc} (h : tocEntries L (.entry id l t num kids :: rest) c = .ok (x, c')) :
    tocSections L (.entry id l t num kids :: rest) c = exec L (·.tocSection) [("Level", .num l), ("Content", .str x)] c' := by
  have h : M.bind (M.bind (tocSections L kids) (fun content => exec L (·.tocEntry) [("Number", .str num), ("ID", .str id), ("Title", .str t), ("Content", .str content)]))
    (fun t => M.bind (tocEntries L rest) (fun u => pure (t ++ u))) c = .ok (x, c') := h
  show M.bind (tocSections L kids) (fun content => M.bind (exec L (·.tocEntry) [("Number", .str num), ("ID", .str id), ("Title", .str t), ("Content", .str content)])
    (fun t => M.bind (tocEntries L rest) (fun u => exec L (·.tocSection) [("Level", .num l), ("Content", .str (t ++ u))]))) c = _
  unfold M.bind at h ⊢
  revert h
  cases tocSections L kids c with
  | error e => intro h; cases h
  | ok p =>
    obtain ⟨content, c1⟩ := p
    dsimp only
    cases exec L (·.tocEntry) [("Number", .str num), ("ID", .str id), ("Title", .str t), ("Content", .str content)] c1 with
    | error e => intro h; cases h
    | ok p =>
      obtain ⟨t1, c2⟩ := p
      dsimp only
      cases tocEntries L rest c2 with
      | error e => intro h; cases h
      | ok p =>
        obtain ⟨t2, c3⟩ := p
        dsimp only
        intro h
        have h := Except.ok.inj h
        rw [← (Prod.mk.inj h).1, ← (Prod.mk.inj h).2]

theorem take_head {α : Type} {p : α → Bool} : ∀ {l : List α} {y : α} {d : List α}, l.takeWhile p = y :: d → l.head? = some y ∧ p y = true
  | [], _, _, h => by cases h
  | x :: l, y, d, h => by
    cases hp : p x with
    | false => rw [List.takeWhile_cons_of_neg (by rw [hp]; decide)] at h; cases h
    | true =>
      rw [List.takeWhile_cons_of_pos hp] at h
      obtain ⟨rfl, _⟩ := List.cons.inj h
      exact ⟨rfl, hp⟩

/-- The entries on the page. -/
theorem shows {R : Html.Rules} (hL : L.tmpl = Html.templatesOf R) (c : Rend.Ctx) : ∀ (n : Nat) (xs : List (Heading × Text)), xs.length ≤ n → Steps (xs.map lvl) →
    tocEntries L (titled u xs) c = .ok (entries L.lower u xs, c)
  | _, [], _, _ => by rw [titled, entries]; rfl
  | n + 1, x :: xs, hl, hs => by
    have hl' : xs.length ≤ n := by simpa using hl
    have hsplit : xs.takeWhile (below x.1.level) ++ xs.dropWhile (below x.1.level) = xs := List.takeWhile_append_dropWhile
    have hst : Steps (xs.map lvl) := steps_tail hs
    have hs1 : Steps ((xs.takeWhile (below x.1.level)).map lvl) := by
      rw [← hsplit, List.map_append] at hst; exact steps_left hst
    have hs2 : Steps ((xs.dropWhile (below x.1.level)).map lvl) := by
      rw [← hsplit, List.map_append] at hst; exact steps_right hst
    have h1 := shows hL c n (xs.takeWhile (below x.1.level)) (Nat.le_trans (Sectioned.takeWhile_length _ _) hl') hs1
    have h2 := shows hL c n (xs.dropWhile (below x.1.level)) (Nat.le_trans (Sectioned.dropWhile_length _ _) hl') hs2
    have hsec : L.tmpl.tocSection = Tmpl.Html5.tocSectionTmpl := by rw [hL]; obtain ⟨x, o⟩ := R; cases x <;> rfl
    have hent : L.tmpl.tocEntry = Tmpl.Html5.tocEntryTmpl := by rw [hL]; obtain ⟨x, o⟩ := R; cases x <;> rfl
    have hk : tocSections L (titled u (xs.takeWhile (below x.1.level))) c =
        .ok (if xs.takeWhile (below x.1.level) = [] then [] else list (x.1.level + 1) (entries L.lower u (xs.takeWhile (below x.1.level))), c) := by
      generalize ht : xs.takeWhile (below x.1.level) = ks at h1
      cases ks with
      | nil => rw [if_pos rfl, titled]; rfl
      | cons y ks =>
        obtain ⟨hh, hb⟩ := take_head ht
        have hly : y.1.level = x.1.level + 1 := by
          have h4 : x.1.level < y.1.level := of_decide_eq_true hb
          have h5 : y.1.level ≤ x.1.level + 1 := by
            cases xs with
            | nil => cases hh
            | cons z xs => cases hh; exact hs.1
          omega
        rw [if_neg (by simp)]
        exact sections_of hsec h1 hly
    rw [titled, entries]
    refine (bind_ok (?_ : tocEntry L _ c = .ok (entry L.lower u x.1 x.2 _, c))).trans ((bind_ok h2).trans rfl)
    refine (bind_ok hk).trans (C62.exec_block ?_)
    rw [hent]
    exact entry_tmpl _ _ _ _
where
  sections_of {c : Rend.Ctx} {l : Nat} {y : Heading × Text} {ks : List (Heading × Text)} {t : Text} (hsec : L.tmpl.tocSection = Tmpl.Html5.tocSectionTmpl)
      (h : tocEntries L (titled u (y :: ks)) c = .ok (t, c)) (hl : y.1.level = l) : tocSections L (titled u (y :: ks)) c = .ok (list l t, c) := by
    rw [titled] at h ⊢
    refine (sections_eq h).trans (C62.exec_block ?_)
    rw [hsec, hl]
    exact section_tmpl _ _ _

/-- The title of the table, if one is given. -/
def tocName (a : Attrs) : Text :=
  match AMap.get a "toc-title" with
  | some (.str t) => t
  | _ => "Table of Contents".toList

/-- The table on the page. -/
theorem table_shows {R : Html.Rules} (hL : L.tmpl = Html.templatesOf R) (re : El → M Text) {c : Rend.Ctx}
    (ht : AMap.get c.attrs "toc-title" = none ∨ ∃ t, AMap.get c.attrs "toc-title" = some (.str t)) {x : Heading × Text} {xs : List (Heading × Text)} (hs : Steps ((x :: xs).map lvl)) :
    renderToc L re (some (titled u (x :: xs))) c = .ok (table L.lower u (tocName c.attrs) (x :: xs), c) := by
  have hsec : L.tmpl.tocSection = Tmpl.Html5.tocSectionTmpl := by rw [hL]; obtain ⟨x, o⟩ := R; cases x <;> rfl
  have hroot : L.tmpl.tocRoot = Tmpl.Html5.tocRootTmpl := by rw [hL]; obtain ⟨x, o⟩ := R; cases x <;> rfl
  have h1 : tocTitle re c = .ok (tocName c.attrs, c) := by
    show tocTitleOf re (AMap.get c.attrs "toc-title") c = _
    unfold tocName
    rcases ht with ht | ⟨t, ht⟩ <;> rw [ht] <;> rfl
  have h2 := shows.sections_of hsec (shows (u := u) hL c _ (x :: xs) (Nat.le_refl _) hs) rfl
  unfold renderToc
  refine (bind_ok h1).trans ((bind_ok h2).trans ?_)
  show (if list x.1.level _ = [] then (_ : M Text) else _) c = _
  rw [if_neg (by unfold list; simp)]
  refine C62.exec_block ?_
  rw [hroot]
  exact root_tmpl _ _ _

end

end C68
end Verif
