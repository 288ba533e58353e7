import Verif.Proofs.RenderLists
/-!
The renderer writes well-formed fragments: tables.
-/
namespace Verif.Rend
open Verif.Html Verif.Tmpl

section
variable {R : Rules} {images : Bool} {L : Lib} {re : El → M Text} {pl : Bool → El → Except Err Text}
  (hL : LibOk R L) (hW : Within R images re pl)

theorem ok_values {l : List Text} : Kind.ok R .values (.strs l) ↔ ∀ t ∈ l, Value R t := by
  simp [Kind.ok]

theorem ok_values_str {t : Text} : Kind.ok R .values (.str t) ↔ False := by
  simp [Kind.ok]

theorem ColOk.halign {c : Col} (h : ColOk c) : Align R c.halign := by
  rcases h.1 with h | h | h
  · exact Or.inl h
  · exact Or.inr (Or.inl h)
  · exact Or.inr (Or.inr (Or.inl h))

theorem ColOk.valign {c : Col} (h : ColOk c) : Align R c.valign := by
  rcases h.2 with h | h | h
  · exact Or.inl h
  · exact Or.inr (Or.inl h)
  · exact Or.inr (Or.inr (Or.inl h))

theorem cols_clean {k : String} {l : List (Option Col)} (h : CleanV R images k (.cols l)) : ∀ c, some c ∈ l → ColOk c := by
  cases h with
  | scalar h => exact h.elim
  | cols h => exact h

theorem colsOf_sat : ∀ {l : List (Option Col)}, (∀ c, some c ∈ l → ColOk c) →
    Sat R images (fun cs : List Col => ∀ c ∈ cs, ColOk c) (colsOf l)
  | [], _ => Sat.pure fun _ h => nomatch h
  | none :: _, _ => Sat.error
  | some c :: l, h => by
    refine (colsOf_sat fun x hx => h x (List.mem_cons_of_mem _ hx)).bind fun r hr => Sat.pure ?_
    intro x hx
    rcases List.mem_append.mp hx with hx | hx
    · rw [(List.mem_replicate.mp hx).2]; exact h c (List.mem_cons_self ..)
    · exact hr x hx

theorem colsAttr_sat {a : Attrs} (ha : AttrsOk R images a) :
    Sat R images (fun cs : List Col => ∀ c ∈ cs, ColOk c) (colsAttr (AMap.get a "cols")) := by
  unfold colsAttr
  split
  · rename_i l e; exact colsOf_sat (cols_clean (ha _ _ e))
  · exact Sat.pure fun _ h => nomatch h
  · exact Sat.error
  · exact Sat.pure fun _ h => nomatch h

theorem columns_sat {a : Attrs} {rows : List (List (List El))} (ha : AttrsOk R images a) :
    Sat R images (fun cs : List Col => ∀ c ∈ cs, ColOk c) (columns a rows) := by
  refine (colsAttr_sat ha).bind fun r hr => Sat.pure ?_
  intro x hx
  rcases List.mem_append.mp hx with hx | hx
  · exact hr x hx
  · rw [(List.mem_replicate.mp hx).2]; exact ⟨Or.inl rfl, Or.inl rfl⟩

theorem paragraph_els {a : List (String × AV)} {l : List El} (h : Clean R images (.paragraph a l)) :
    AttrsOk R images a ∧ ElsOk R images l := by
  cases h with
  | paragraph h1 h2 h3 => exact ⟨h1, h2, h3⟩

include hL hW in
theorem headCell_sat {tm : Templates → Tm} {K : Fields} (hok : ∀ R : Rules, accepts R K [] (tm (templatesOf R)) = true)
    (hK : K = [("HAlign", .align), ("VAlign", .align), ("Content", .markup)]) {cell : List El} {col : Col}
    (hc : ∀ e ∈ cell, Clean R images e) (hcol : ColOk col) : Sat R images (Markup R) (headCell L re tm cell col) := by
  unfold headCell
  split
  · rename_i a els
    obtain ⟨-, h1, h2⟩ := paragraph_els (hc _ (List.mem_singleton.mpr rfl))
    refine (renderInline_balanced hW h1 h2).bind fun t ht => ?_
    have e1 : Align R col.halign := hcol.halign
    have e2 : Align R col.valign := hcol.valign
    subst hK
    exact exec_sat hL hok (by apply fits_of; simp [AMap.get_cons, ht, e1, e2]) holds_nil
  · exact Sat.error

include hL hW in
theorem headCells_sat {tm : Templates → Tm} {K : Fields} (hok : ∀ R : Rules, accepts R K [] (tm (templatesOf R)) = true)
    (hK : K = [("HAlign", .align), ("VAlign", .align), ("Content", .markup)]) {cols : List Col} (hcols : ∀ c ∈ cols, ColOk c) :
    ∀ {l : List (List El)} {i : Nat}, (∀ c ∈ l, ∀ e ∈ c, Clean R images e) →
    Sat R images (Markup R) (headCells L re tm cols i l)
  | [], _, _ => Sat.pure .empty
  | cell :: l, i, h => by
    unfold headCells
    split
    · exact Sat.error
    · rename_i col e
      refine (headCell_sat hL hW hok hK (h cell (List.mem_cons_self ..)) (hcols _ (List.mem_of_getElem? e))).bind fun t ht => ?_
      exact (headCells_sat hok hK hcols fun c hc => h c (List.mem_cons_of_mem _ hc)).bind fun u hu => Sat.pure (ht.append hu)

include hL hW in
theorem headRow_sat {rowTm tm : Templates → Tm} {K : Fields} (hok : ∀ R : Rules, accepts R K [] (tm (templatesOf R)) = true)
    (hK : K = [("HAlign", .align), ("VAlign", .align), ("Content", .markup)])
    (hrow : ∀ R : Rules, accepts R [("Content", .markup)] [] (rowTm (templatesOf R)) = true)
    {cols : List Col} (hcols : ∀ c ∈ cols, ColOk c)
    {cells : Option (List (List El))} (h : ∀ l, cells = some l → ∀ c ∈ l, ∀ e ∈ c, Clean R images e) :
    Sat R images (Markup R) (headRow L re rowTm tm cols cells) := by
  cases cells with
  | none => exact Sat.pure .empty
  | some l =>
    refine (headCells_sat hL hW hok hK hcols (h l rfl)).bind fun t ht => ?_
    exact exec_sat hL hrow (by fits) holds_nil

theorem markup_trimSuffix {t : Text} (h : Markup R t) : Markup R (Tmpl.trimSuffix "\n".toList t) := by
  unfold Tmpl.trimSuffix
  split
  · rename_i hs
    obtain ⟨p, hp⟩ := List.isSuffixOf_iff_suffix.mp hs
    subst hp
    have e : List.take ((p ++ "\n".toList).length - "\n".toList.length) (p ++ "\n".toList) = p := by
      rw [List.length_append, Nat.add_sub_cancel, List.take_left']
      rfl
    rw [e]
    exact h.drop_end (plain_lit (by decide))
  · exact h

include hL hW in
theorem cellBlock_sat {e : El} (he : Clean R images e) : Sat R images (Markup R) (cellBlock L re e) := by
  unfold cellBlock
  split
  · obtain ⟨ha, hl⟩ := paragraph_els he
    refine (renderEls_sat hW hl).bind fun t ht => (elementTitle_sat hW ha).bind fun _ _ => ?_
    refine Sat.bind (P := Markup R) ?_ fun u hu => Sat.pure (markup_trimSuffix hu)
    have hcs := checkStyle_markup ha
    have hv : Value R "tableblock".toList := (safe_lit (by decide)).2
    clear hl he ha
    generalize "tableblock".toList = cls at hv ⊢
    exact exec_sat hL embeddedParagraph_ok (by fits) holds_nil
  · refine (hW.markup _ he).bind fun t ht => ?_
    clear he
    exact exec_sat hL tableCellBlock_ok (by fits) holds_nil

include hL hW in
theorem cellBlocks_sat : ∀ {l : List El}, (∀ e ∈ l, Clean R images e) → Sat R images (Markup R) (cellBlocks L re l)
  | [], _ => Sat.pure .empty
  | e :: l, h => by
    refine (cellBlock_sat hL hW (h e (List.mem_cons_self ..))).bind fun t ht => ?_
    exact (cellBlocks_sat fun x hx => h x (List.mem_cons_of_mem _ hx)).bind fun u hu => Sat.pure (ht.append hu)

include hL hW in
theorem tableCell_sat {l : List El} {col : Col} (h : ∀ e ∈ l, Clean R images e) (hcol : ColOk col) :
    Sat R images (Markup R) (tableCell L re l col) := by
  refine (cellBlocks_sat hL hW h).bind fun t ht => ?_
  have e1 : Align R col.halign := hcol.halign
  have e2 : Align R col.valign := hcol.valign
  clear h hcol
  exact Sat.ite (fun _ => exec_sat hL tableHeaderCell_ok (by fits) holds_nil)
    fun _ => exec_sat hL tableCell_ok (by fits) holds_nil

include hL hW in
theorem rowCells_sat {cols : List Col} (hcols : ∀ c ∈ cols, ColOk c) :
    ∀ {l : List (List El)} {i : Nat}, (∀ c ∈ l, ∀ e ∈ c, Clean R images e) → Sat R images (Markup R) (rowCells L re cols i l)
  | [], _, _ => Sat.pure .empty
  | cell :: l, i, h => by
    unfold rowCells
    split
    · exact Sat.error
    · rename_i col e
      refine (tableCell_sat hL hW (h cell (List.mem_cons_self ..)) (hcols _ (List.mem_of_getElem? e))).bind fun t ht => ?_
      exact (rowCells_sat hcols fun c hc => h c (List.mem_cons_of_mem _ hc)).bind fun u hu => Sat.pure (ht.append hu)

include hL hW in
theorem tableRows_sat {cols : List Col} (hcols : ∀ c ∈ cols, ColOk c) :
    ∀ {l : List (List (List El))}, (∀ r ∈ l, ∀ c ∈ r, ∀ e ∈ c, Clean R images e) → Sat R images (Markup R) (tableRows L re cols l)
  | [], _ => Sat.pure .empty
  | row :: l, h => by
    refine (rowCells_sat hL hW hcols (h row (List.mem_cons_self ..))).bind fun t ht => ?_
    refine (exec_sat (K := tableRowFields) (A := []) hL tableRow_ok (by clear h hcols; fits) holds_nil).bind fun u hu => ?_
    exact (tableRows_sat hcols fun c hc => h c (List.mem_cons_of_mem _ hc)).bind fun v hv => Sat.pure (hu.append hv)

include hL hW in
theorem renderTable_sat {a : Attrs} {header footer : Option (List (List El))} {rows : List (List (List El))}
    (ha : AttrsOk R images a) (hh : ∀ l, header = some l → ∀ c ∈ l, ∀ e ∈ c, Clean R images e)
    (hr : ∀ r ∈ rows, ∀ c ∈ r, ∀ e ∈ c, Clean R images e) (hf : ∀ l, footer = some l → ∀ c ∈ l, ∀ e ∈ c, Clean R images e) :
    Sat R images (Markup R) (renderTable L re a header rows footer) := by
  unfold renderTable
  extract_lets w fit0 fit w'
  refine (optCaption_sat ha).bind fun cap hcap => ?_
  refine (columns_sat ha).bind fun cols hcols => ?_
  refine (headRow_sat hL hW tableHeaderCell_ok rfl tableHeader_ok hcols hh).bind fun h hh' => ?_
  refine (headRow_sat hL hW tableFooterCell_ok rfl tableFooter_ok hcols hf).bind fun f hf' => ?_
  refine Sat.bind (P := Markup R) ?_ fun b hb => ?_
  · refine (tableRows_sat hL hW hcols hr).bind fun t ht => ?_
    clear hcols hr hh hf
    exact exec_sat hL tableBody_ok (by fits) holds_nil
  refine (elementRoles_sat hW ha).bind fun roles hroles => (elementTitle_sat hW ha).bind fun title htitle => ?_
  have hid := elementID_value ha
  have h1 : Value R (getStrD L.sprint a "frame" "all".toList) := (getStrD_safe hL ha (by decide) (safe_lit (by decide))).2
  have h2 : Value R (getStrD L.sprint a "grid" "all".toList) := (getStrD_safe hL ha (by decide) (safe_lit (by decide))).2
  have h3 : Value R (getStrD L.sprint a "float" []) := (getStrD_safe hL ha (by decide) Safe.nil).2
  have h4 : Value R (getStrD L.sprint a "stripes" []) := (getStrD_safe hL ha (by decide) Safe.nil).2
  have h5 : Value R fit := by
    show Value R (if _ then _ else _)
    split
    · exact (safe_lit (by decide)).2
    · split
      · exact Safe.nil.2
      · show Value R (if _ then _ else _)
        split <;> exact (safe_lit (by decide)).2
  have h6 := fun b => hL.widths b cols
  clear hcols hr hh hf ha
  generalize getStrD L.sprint a "frame" "all".toList = x1 at h1 ⊢
  generalize getStrD L.sprint a "grid" "all".toList = x2 at h2 ⊢
  exact exec_sat hL table_ok (by
    apply fits_of
    simp [AMap.get_cons, ok_values, hcap, hh', hf', hb, hroles, htitle, hid, h1, h2, h3, h4, h5]
    exact h6 _) holds_nil

end

end Verif.Rend
