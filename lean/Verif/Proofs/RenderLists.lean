import Verif.Proofs.RenderBlocks
/-!
The renderer writes well-formed fragments: lists.
-/
namespace Verif.Rend
open Verif.Html Verif.Tmpl

section
variable {R : Rules} {images : Bool} {L : Lib} {re : El → M Text} {pl : Bool → El → Except Err Text}
  (hL : LibOk R L) (hW : Within R images re pl)

theorem bind_ok {α β : Type} {m : M α} {f : α → M β} {c c' : Ctx} {b : β} (h : (m >>= f) c = .ok (b, c')) :
    ∃ a c1, m c = .ok (a, c1) ∧ f a c1 = .ok (b, c') := by
  have h : M.bind m f c = .ok (b, c') := h
  unfold M.bind at h
  cases e : m c with
  | error x => rw [e] at h; cases h
  | ok r => obtain ⟨a, c1⟩ := r; rw [e] at h; exact ⟨a, c1, rfl, h⟩

theorem pure_ok {α : Type} {a b : α} {c c' : Ctx} (h : (Pure.pure a : M α) c = .ok (b, c')) : a = b ∧ c = c' := by
  cases h; exact ⟨rfl, rfl⟩

/-- What a computation does and a property of its result. -/
theorem Sat.and {α : Type} {P : α → Prop} {Q : α → Prop} {m : M α} (h : Sat R images P m)
    (hq : ∀ c a c', m c = .ok (a, c') → Q a) : Sat R images (fun a => P a ∧ Q a) m :=
  fun c a c' hc e => ⟨⟨(h c a c' hc e).1, hq c a c' e⟩, (h c a c' hc e).2⟩

include hW in
theorem renderListElements_ne {a : List (String × AV)} {l r : List El} {c c' : Ctx} {t : Text}
    (h : renderListElements re (.paragraph a l :: r) c = .ok (t, c')) : t ≠ [] := by
  obtain ⟨_, c1, h1, h⟩ := bind_ok h
  obtain ⟨u, c2, h2, h⟩ := bind_ok h
  obtain ⟨_, c3, h3, h⟩ := bind_ok h
  obtain ⟨w, c4, h4, h⟩ := bind_ok h
  obtain ⟨rfl, _⟩ := pure_ok h
  cases h1
  have := hW.para a l _ _ _ (Nat.succ_pos _) h2
  simp [this]

include hL hW in
theorem orderedItems_sat : ∀ {items : List Item}, (∀ i ∈ items, ∀ e ∈ i.els, Clean R images e) →
    Sat R images (Markup R) (orderedItems L re items)
  | [], _ => Sat.pure .empty
  | i :: l, h => by
    unfold orderedItems
    refine Sat.ite (fun _ => ?_) fun _ => Sat.error
    refine (renderListElements_sat hW (h i (List.mem_cons_self ..))).bind fun content hc => ?_
    refine Sat.bind (P := Markup R) (exec_sat hL orderedListElement_ok (by clear h; fits) holds_nil) fun t ht => ?_
    exact (orderedItems_sat fun x hx => h x (List.mem_cons_of_mem _ hx)).bind fun u hu => Sat.pure (ht.append hu)

theorem numberingStyle_sat {a : Attrs} {items : List Item} (ha : AttrsOk R images a) (h : ∀ i ∈ items, Safe R i.style) :
    Sat R images (Safe R) (numberingStyle a items) := by
  unfold numberingStyle
  split
  · rename_i t e; exact Sat.pure (getStr_safe ha (by decide) e)
  · split
    · exact Sat.error
    · rename_i i l
      exact Sat.ite (fun _ => Sat.pure (h i (List.mem_cons_self ..))) fun _ => Sat.error

theorem numberingType_value {t : Text} : Value R (numberingType t) := by
  unfold numberingType
  split
  · exact (safe_lit (by decide)).2
  split
  · exact (safe_lit (by decide)).2
  split
  · exact (safe_lit (by decide)).2
  split
  · exact (safe_lit (by decide)).2
  · exact Safe.nil.2

include hL hW in
theorem orderedList_sat {a : Attrs} {items : List Item} (ha : AttrsOk R images a) (h : ∀ i ∈ items, ∀ e ∈ i.els, Clean R images e)
    (hs : ∀ i ∈ items, Safe R i.style) (hx : R.xml = true → hasOption a "reversed" = false) :
    Sat R images (Markup R) (orderedList L re a items) := by
  unfold orderedList
  refine (orderedItems_sat hL hW h).bind fun content hc => (elementRoles_sat hW ha).bind fun roles hr =>
    (numberingStyle_sat ha hs).bind fun style hstyle => (elementTitle_sat hW ha).bind fun title ht => ?_
  have h1 := elementID_value ha
  have h2 := hstyle.2
  have h3 := numberingType_value (R := R) (t := style)
  have h4 := (getStrD_safe hL ha (k := "start") (by decide) Safe.nil).2
  refine exec_sat' hL (orderedList_ok R) (by clear hx h hs; fits) ?_
  intro p hp
  split at hp
  · rename_i hxml
    rw [List.mem_singleton] at hp
    subst hp
    simp [Tmpl.Cond.eval, blockEnv, AMap.get_cons, Val.truth, hx hxml]
  · cases hp

include hL hW in
theorem unorderedItems_sat : ∀ {items : List Item}, (∀ i ∈ items, ∀ e ∈ i.els, Clean R images e) →
    Sat R images (Markup R) (unorderedItems L re items)
  | [], _ => Sat.pure .empty
  | i :: l, h => by
    unfold unorderedItems
    refine (renderListElements_sat hW (h i (List.mem_cons_self ..))).bind fun content hc => ?_
    refine Sat.bind (P := Markup R) (exec_sat hL unorderedListElement_ok (by clear h; fits) holds_nil) fun t ht => ?_
    exact (unorderedItems_sat fun x hx => h x (List.mem_cons_of_mem _ hx)).bind fun u hu => Sat.pure (ht.append hu)

theorem isCheckList_sat {items : List Item} : Sat R images (fun _ => True) (isCheckList items) := by
  unfold isCheckList
  split
  · exact Sat.pure trivial
  · exact Sat.ite (fun _ => Sat.pure trivial) fun _ => Sat.error

include hL hW in
theorem unorderedList_sat {a : Attrs} {items : List Item} (ha : AttrsOk R images a) (h : ∀ i ∈ items, ∀ e ∈ i.els, Clean R images e) :
    Sat R images (Markup R) (unorderedList L re a items) := by
  unfold unorderedList
  refine isCheckList_sat.bind fun b _ => (unorderedItems_sat hL hW h).bind fun content hc =>
    (elementRoles_sat hW ha).bind fun roles hr => (elementTitle_sat hW ha).bind fun title ht => ?_
  have h1 := elementID_value ha
  have h2 := elementStyle_value ha
  clear h
  exact exec_sat hL unorderedList_ok (by fits) holds_nil

include hL hW in
theorem labeledItems_sat {tm : Templates → Tm}
    (htm : ∀ R : Rules, accepts R [("Term", .markup), ("Content", .markup)] [] (tm (templatesOf R)) = true) :
    ∀ {items : List Item} {cont : Bool}, (∀ i ∈ items, ∀ e ∈ i.els, Clean R images e) → (∀ i ∈ items, ∀ e ∈ i.term, Clean R images e) →
    Sat R images (Markup R) (labeledItems L re tm cont items)
  | [], _, _, _ => Sat.pure .empty
  | i :: l, cont, h, h' => by
    unfold labeledItems
    refine Sat.ite (fun _ => ?_) fun _ => Sat.error
    refine (renderInline_sat hW (h' i (List.mem_cons_self ..))).bind fun term hterm => ?_
    refine (renderListElements_sat hW (h i (List.mem_cons_self ..))).bind fun content hc => ?_
    refine Sat.bind (P := Markup R) (exec_sat hL htm (by clear h h' htm; fits) holds_nil) fun t ht => ?_
    exact (labeledItems_sat htm (fun x hx => h x (List.mem_cons_of_mem _ hx)) fun x hx => h' x (List.mem_cons_of_mem _ hx)).bind
      fun u hu => Sat.pure (ht.append hu)

include hL in
theorem exec_run {tm : Templates → Tm} {K : Fields} {A : Known} {s s' : Html.St} {env : Tmpl.Env}
    (hok : (run R K (tm (templatesOf R)) A s).any (fun outs => outs.all fun p => p.2 = s') = true) (hf : Fits R K env) (hA : Holds env A) :
    Sat R images (fun t => scan R s t = some s') (exec L tm env) := by
  intro c t c' hc e
  unfold exec at e
  rw [hL.tmpl] at e
  cases h : (tm (templatesOf R)).render L.lower env with
  | none => rw [h] at e; cases e
  | some u =>
    rw [h] at e
    cases e
    refine ⟨?_, hc⟩
    cases hr : run R K (tm (templatesOf R)) A s with
    | none => rw [hr] at hok; cases hok
    | some outs =>
      rw [hr] at hok
      obtain ⟨p, hp, _, hsc⟩ := run_sound hL.lower _ K A s outs env t hr hf hA h
      have e : p.2 = s' := by simpa using List.all_eq_true.mp hok p hp
      have := hsc []
      rw [e] at this
      simpa [St.over] using this

/-- Between the items of a horizontal list: whether the cell with the terms is open. -/
def rowState (cont : Bool) : Html.St := if cont then ⟨.text, ["td".toList, "tr".toList]⟩ else ⟨.text, []⟩

theorem horizontal_run : ∀ (R : Rules) (cont full : Bool),
    (run R [("Term", .markup), ("Content", .markup)] (templatesOf R).labeledListHorizontalElement
      [(.is "Continuation", cont), (.is "Content", full)] (rowState cont)).any
      (fun outs => outs.all fun p => p.2 = rowState (!full)) = true :=
  forall_rules (by decide +kernel) (by decide +kernel)

include hL hW in
theorem horizontalItems_sat : ∀ {items : List Item} {cont : Bool}, (∀ i ∈ items, ∀ e ∈ i.els, Clean R images e) →
    (∀ i ∈ items, ∀ e ∈ i.term, Clean R images e) → (items = [] → cont = false) → LastHasContent items →
    Sat R images (fun t => scan R (rowState cont) t = some (rowState false))
      (labeledItems L re (·.labeledListHorizontalElement) cont items)
  | [], cont, _, _, hn, _ => by rw [hn rfl]; exact Sat.pure rfl
  | i :: l, cont, h, h', _, hl => by
    unfold labeledItems
    refine Sat.ite (fun _ => ?_) fun _ => Sat.error
    refine (renderInline_sat hW (h' i (List.mem_cons_self ..))).bind fun term hterm => ?_
    have h1 : Sat R images (fun t => Markup R t ∧ (l = [] → t ≠ [])) (renderListElements re i.els) := by
      refine (renderListElements_sat hW (h i (List.mem_cons_self ..))).and fun c t c' e hn => ?_
      subst hn
      obtain ⟨a, x, r, he⟩ := hl i rfl
      rw [he] at e
      exact renderListElements_ne hW e
    refine h1.bind fun content hc => ?_
    obtain ⟨hc, hne⟩ := hc
    refine Sat.bind (P := fun t => scan R (rowState cont) t = some (rowState content.isEmpty)) ?_ fun t ht => ?_
    · have := horizontal_run R cont (!content.isEmpty)
      rw [Bool.not_not] at this
      refine exec_run hL this (by clear h h' hl h1 hne this; fits) ?_
      intro p hp
      rcases List.mem_cons.mp hp with rfl | hp
      · simp [Tmpl.Cond.eval, AMap.get_cons, Val.truth]
      · rw [List.mem_singleton] at hp
        subst hp
        simp [Tmpl.Cond.eval, AMap.get_cons, Val.truth]
    · refine (horizontalItems_sat (fun x hx => h x (List.mem_cons_of_mem _ hx)) (fun x hx => h' x (List.mem_cons_of_mem _ hx)) ?_ ?_).bind
        fun u hu => Sat.pure (scan_append_of ht hu)
      · intro e
        have := hne e
        cases content with
        | nil => exact absurd rfl this
        | cons c t => rfl
      · intro x hx
        refine hl x ?_
        cases l with
        | nil => cases hx
        | cons y l => rw [List.getLast?_cons_cons]; exact hx

include hL hW in
theorem labeledListWith_sat {listTm itemTm : Templates → Tm} {a : Attrs} {items : List Item} (ha : AttrsOk R images a)
    (hlist : ∀ R : Rules, accepts R labeledListFields [] (listTm (templatesOf R)) = true)
    (hitems : Sat R images (Markup R) (labeledItems L re itemTm false items)) :
    Sat R images (Markup R) (labeledListWith L re listTm itemTm a items) := by
  unfold labeledListWith
  refine hitems.bind fun content hc => (elementRoles_sat hW ha).bind fun roles hr => (elementTitle_sat hW ha).bind fun title ht => ?_
  have h1 := elementID_value ha
  clear hitems
  exact exec_sat hL hlist (by clear hlist; fits) holds_nil

include hL hW in
theorem labeledList_sat {a : Attrs} {items : List Item} (ha : AttrsOk R images a) (h : ∀ i ∈ items, ∀ e ∈ i.els, Clean R images e)
    (h' : ∀ i ∈ items, ∀ e ∈ i.term, Clean R images e) (hl : getStr a "style" = some "horizontal".toList → LastHasContent items) :
    Sat R images (Markup R) (labeledList L re a items) := by
  unfold labeledList
  split
  · rename_i t e
    refine Sat.ite (fun _ => ?_) fun _ => Sat.ite (fun hh => ?_) fun _ => Sat.error
    · exact labeledListWith_sat hL hW ha qAndAList_ok (labeledItems_sat hL hW qAndAListElement_ok h h')
    · refine labeledListWith_sat hL hW ha labeledListHorizontal_ok ?_
      refine (horizontalItems_sat hL hW h h' (fun _ => rfl) (hl ?_)).mono fun t ht => markup_iff.mpr ht
      unfold getStr; rw [e, hh]
  · exact Sat.error
  · exact labeledListWith_sat hL hW ha labeledList_ok (labeledItems_sat hL hW labeledListElement_ok h h')

include hL hW in
theorem calloutItems_sat : ∀ {items : List Item}, (∀ i ∈ items, ∀ e ∈ i.els, Clean R images e) →
    Sat R images (Markup R) (calloutItems L re items)
  | [], _ => Sat.pure .empty
  | i :: l, h => by
    unfold calloutItems
    refine Sat.ite (fun _ => ?_) fun _ => Sat.error
    refine (renderListElements_sat hW (h i (List.mem_cons_self ..))).bind fun content hc => ?_
    refine Sat.bind (P := Markup R) (exec_sat hL calloutListElement_ok (by clear h; fits) holds_nil) fun t ht => ?_
    exact (calloutItems_sat fun x hx => h x (List.mem_cons_of_mem _ hx)).bind fun u hu => Sat.pure (ht.append hu)

include hL hW in
theorem calloutList_sat {a : Attrs} {items : List Item} (ha : AttrsOk R images a) (h : ∀ i ∈ items, ∀ e ∈ i.els, Clean R images e) :
    Sat R images (Markup R) (calloutList L re a items) := by
  unfold calloutList
  refine (calloutItems_sat hL hW h).bind fun content hc =>
    (elementRoles_sat hW ha).bind fun roles hr => (elementTitle_sat hW ha).bind fun title ht => ?_
  have h1 := elementID_value ha
  clear h
  exact exec_sat hL calloutList_ok (by fits) holds_nil

include hL hW in
theorem renderList_sat {k : ListKind} {a : Attrs} {items : List Item} (ha : AttrsOk R images a)
    (h : ∀ i ∈ items, ∀ e ∈ i.els, Clean R images e) (h' : ∀ i ∈ items, ∀ e ∈ i.term, Clean R images e)
    (hs : ∀ i ∈ items, Safe R i.style) (hx : R.xml = true → k = .ordered → hasOption a "reversed" = false)
    (hl : k = .labeled → getStr a "style" = some "horizontal".toList → LastHasContent items) :
    Sat R images (Markup R) (renderList L re k a items) := by
  cases k with
  | ordered => exact orderedList_sat hL hW ha h hs fun e => hx e rfl
  | unordered => exact unorderedList_sat hL hW ha h
  | labeled => exact labeledList_sat hL hW ha h h' (hl rfl)
  | callout => exact calloutList_sat hL hW ha h
  | other => exact Sat.error

end
end Verif.Rend
