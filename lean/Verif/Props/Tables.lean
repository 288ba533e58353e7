import Verif.Spec.Tables
import Verif.Proofs.KernelRfl
/-! C77: tables are written row by row, cell by cell. -/
namespace Verif.C77
open Rend (AV El Attrs Lib M Col)
open Tables

variable {L : Lib}

/-- The templates of tables, of html5 and xhtml5. -/
structure Boxes (L : Lib) (close : String) : Prop where
  body : L.tmpl.tableBody = Tmpl.Html5.tableBodyTmpl
  cell : L.tmpl.tableCell = Tmpl.Html5.tableCellTmpl
  header : L.tmpl.tableHeader = Tmpl.Html5.tableHeaderTmpl
  headerCell : L.tmpl.tableHeaderCell = Tmpl.Html5.tableHeaderCellTmpl
  footer : L.tmpl.tableFooter = Tmpl.Html5.tableFooterTmpl
  footerCell : L.tmpl.tableFooterCell = Tmpl.Html5.tableFooterCellTmpl
  row : L.tmpl.tableRow = Tmpl.Html5.tableRowTmpl
  paragraph : L.tmpl.embeddedParagraph = Tmpl.Html5.embeddedParagraphTmpl
  cellBlock : L.tmpl.tableCellBlock = Tmpl.Html5.tableCellBlockTmpl
  table : (L.tmpl.table = Tmpl.Html5.tableTmpl ∧ close = ">") ∨ (L.tmpl.table = Tmpl.Xhtml5.tableTmpl ∧ close = "/>")

/-! ### Templates -/

theorem across_eq (v : Text) : Tmpl.halign v = across v := rfl
theorem down_eq (v : Text) : Tmpl.valign v = down v := rfl

theorem cell_written {close : String} (hL : Boxes L close) (content : Text) (col : Col) (c : Rend.Ctx) :
    Rend.exec L (·.tableCell) [("Content", .str content), ("HAlign", .str col.halign), ("VAlign", .str col.valign)] c = .ok (boxed "td" col content, c) := by
  unfold Rend.exec
  dsimp only
  rw [hL.cell]
  show Except.ok ("<td class=\"tableblock ".toList ++ (Tmpl.halign col.halign ++ (" ".toList ++ (Tmpl.valign col.valign ++ ("\">".toList ++ (content ++ ("</td>\n".toList ++ [])))))), c) = _
  unfold boxed
  rw [across_eq, down_eq]
  simp only [List.append_assoc]
  kernel_rfl

theorem headerCell_written {close : String} (hL : Boxes L close) (content : Text) (col : Col) (c : Rend.Ctx) :
    Rend.exec L (·.tableHeaderCell) [("HAlign", .str col.halign), ("VAlign", .str col.valign), ("Content", .str content)] c = .ok (boxed "th" col content, c) := by
  unfold Rend.exec
  dsimp only
  rw [hL.headerCell]
  show Except.ok ("<th class=\"tableblock ".toList ++ (Tmpl.halign col.halign ++ (" ".toList ++ (Tmpl.valign col.valign ++ ("\">".toList ++ (content ++ ("</th>\n".toList ++ [])))))), c) = _
  unfold boxed
  rw [across_eq, down_eq]
  simp only [List.append_assoc]
  kernel_rfl

theorem headerCell_written' {close : String} (hL : Boxes L close) (content : Text) (col : Col) (c : Rend.Ctx) :
    Rend.exec L (·.tableHeaderCell) [("Content", .str content), ("HAlign", .str col.halign), ("VAlign", .str col.valign)] c = .ok (boxed "th" col content, c) := by
  refine Eq.trans ?_ (headerCell_written hL content col c)
  unfold Rend.exec
  dsimp only
  rw [hL.headerCell]
  rfl

theorem footerCell_written {close : String} (hL : Boxes L close) (content : Text) (col : Col) (c : Rend.Ctx) :
    Rend.exec L (·.tableFooterCell) [("HAlign", .str col.halign), ("VAlign", .str col.valign), ("Content", .str content)] c = .ok (boxed "td" col (para content), c) := by
  unfold Rend.exec
  dsimp only
  rw [hL.footerCell]
  show Except.ok ("<td class=\"tableblock ".toList ++ (Tmpl.halign col.halign ++ (" ".toList ++ (Tmpl.valign col.valign ++ ("\"><p class=\"tableblock\">".toList ++ (content ++ ("</p></td>\n".toList ++ [])))))), c) = _
  unfold boxed para
  rw [across_eq, down_eq]
  simp only [List.append_assoc]
  kernel_rfl

theorem row_written {close : String} (hL : Boxes L close) (content : Text) (c : Rend.Ctx) :
    Rend.exec L (·.tableRow) [("Content", .str content)] c = .ok ("<tr>\n".toList ++ content ++ "</tr>\n".toList, c) := by
  unfold Rend.exec
  dsimp only
  rw [hL.row]
  show Except.ok ("<tr>\n".toList ++ (content ++ ("</tr>\n".toList ++ [])), c) = _
  rw [List.append_nil, List.append_assoc]

theorem body_written {close : String} (hL : Boxes L close) {content : Text} (h : content ≠ []) (c : Rend.Ctx) :
    Rend.exec L (·.tableBody) [("Content", .str content)] c = .ok ("<tbody>\n".toList ++ content ++ "</tbody>\n".toList, c) := by
  unfold Rend.exec
  dsimp only
  rw [hL.body]
  cases content with
  | nil => exact absurd rfl h
  | cons x l =>
    show Except.ok (("<tbody>\n".toList ++ (x :: l ++ ("</tbody>\n".toList ++ []))) ++ [], c) = _
    simp only [List.append_assoc, List.append_nil]

theorem header_written {close : String} (hL : Boxes L close) (content : Text) (c : Rend.Ctx) :
    Rend.exec L (·.tableHeader) [("Content", .str content)] c = .ok (if content = [] then [] else "<thead>\n<tr>\n".toList ++ content ++ "</tr>\n</thead>\n".toList, c) := by
  unfold Rend.exec
  dsimp only
  rw [hL.header]
  cases content with
  | nil => rfl
  | cons x l =>
    rw [if_neg (List.cons_ne_nil _ _)]
    show Except.ok (("<thead>\n<tr>\n".toList ++ (x :: l ++ ("</tr>\n</thead>\n".toList ++ []))) ++ [], c) = _
    simp only [List.append_assoc, List.append_nil]

theorem footer_written {close : String} (hL : Boxes L close) (content : Text) (c : Rend.Ctx) :
    Rend.exec L (·.tableFooter) [("Content", .str content)] c = .ok (if content = [] then [] else "<tfoot>\n<tr>\n".toList ++ content ++ "</tr>\n</tfoot>\n".toList, c) := by
  unfold Rend.exec
  dsimp only
  rw [hL.footer]
  cases content with
  | nil => rfl
  | cons x l =>
    rw [if_neg (List.cons_ne_nil _ _)]
    show Except.ok (("<tfoot>\n<tr>\n".toList ++ (x :: l ++ ("</tr>\n</tfoot>\n".toList ++ []))) ++ [], c) = _
    simp only [List.append_assoc, List.append_nil]

theorem trim_lf (t : Text) : Tmpl.trimSuffix "\n".toList (t ++ ['\n']) = t := by
  unfold Tmpl.trimSuffix
  rw [show "\n".toList = ['\n'] from rfl, if_pos (by rw [List.isSuffixOf_iff_suffix]; exact List.suffix_append _ _)]
  simp

/-! ### Cells -/

/-- The content of cells is rendered as stated. -/
def Renders (re : El → M Text) (c : Rend.Ctx) : Item → Prop
  | .para els t => Rend.renderAll re els c = .ok (t, c)
  | .block e t => (∀ a l, e ≠ .paragraph a l) ∧ re e c = .ok (t, c)

/-- In the header and the footer, spaces at the end are trimmed. -/
def RendersHead (re : El → M Text) (c : Rend.Ctx) (p : Piece) : Prop := Rend.renderInline re p.1 c = .ok (p.2, c)

theorem trimmed_eq (t : Text) : Tmpl.trimSuffix "\n".toList t = trimmed t := by
  unfold trimmed
  rcases List.eq_nil_or_concat t with rfl | ⟨l, x, rfl⟩
  · rfl
  · rw [List.concat_eq_append, List.getLast?_append, List.dropLast_concat]
    show _ = if some x = some '\n' then l else l ++ [x]
    by_cases h : x = '\n'
    · rw [h, if_pos rfl, trim_lf]
    · rw [if_neg (fun e => h (Option.some.inj e))]
      unfold Tmpl.trimSuffix
      rw [if_neg]
      rw [List.isSuffixOf_iff_suffix]
      rintro ⟨m, hm⟩
      have := congrArg List.getLast? hm
      rw [show "\n".toList = ['\n'] from rfl, List.getLast?_concat, List.getLast?_concat] at this
      exact h (Option.some.inj this).symm

theorem paragraph_written {close : String} (hL : Boxes L close) {re : El → M Text} {c : Rend.Ctx} {els : List El} {t : Text} (h : Rend.renderAll re els c = .ok (t, c)) :
    Rend.cellBlock L re (.paragraph [] els) c = .ok (para t, c) := by
  unfold Rend.cellBlock
  show M.bind (Rend.renderAll re els) _ c = _
  unfold M.bind
  rw [h]
  show M.bind (Rend.elementTitle re []) _ c = _
  unfold M.bind
  show M.bind (Rend.exec L (·.embeddedParagraph) _) _ c = _
  unfold M.bind Rend.exec
  dsimp only
  rw [hL.paragraph]
  show Except.ok (Tmpl.trimSuffix "\n".toList ("<p".toList ++ ((" class=\"".toList ++ ("tableblock".toList ++ ("\"".toList ++ []))) ++ (">".toList ++ ([] ++ (t ++ ("</p>\n".toList ++ [])))))), c) = _
  rw [show "<p".toList ++ ((" class=\"".toList ++ ("tableblock".toList ++ ("\"".toList ++ []))) ++ (">".toList ++ ([] ++ (t ++ ("</p>\n".toList ++ []))))) = para t ++ ['\n'] by
    unfold para
    simp only [List.append_assoc, List.append_nil, List.nil_append]
    kernel_rfl, trim_lf]

theorem block_written {close : String} (hL : Boxes L close) {re : El → M Text} {c : Rend.Ctx} {e : El} {t : Text} (he : ∀ a l, e ≠ .paragraph a l) (h : re e c = .ok (t, c)) :
    Rend.cellBlock L re e c = .ok ("<div class=\"content\">".toList ++ trimmed t ++ "</div>".toList, c) := by
  have h2 : Rend.cellBlock L re e = M.bind (re e) fun t => Rend.exec L (·.tableCellBlock) [("Content", .str t)] := by
    unfold Rend.cellBlock
    split
    · exact absurd rfl (he _ _)
    · rfl
  rw [h2]
  unfold M.bind
  rw [h]
  dsimp only
  unfold Rend.exec
  dsimp only
  rw [hL.cellBlock]
  show Except.ok ("<div class=\"content\">".toList ++ (Tmpl.trimSuffix "\n".toList t ++ ("</div>".toList ++ [])), c) = _
  rw [trimmed_eq, List.append_nil, List.append_assoc]

theorem blocks_written {close : String} (hL : Boxes L close) {re : El → M Text} {c : Rend.Ctx} : ∀ (l : List Item), (∀ p ∈ l, Renders re c p) →
    Rend.cellBlocks L re (cellEls l) c = .ok (l.flatMap item, c)
  | [], _ => rfl
  | p :: l, h => by
    have hp : Rend.cellBlock L re p.element c = .ok (item p, c) := by
      have := h p List.mem_cons_self
      cases p with
      | para els t => exact paragraph_written hL this
      | block e t => exact block_written hL this.1 this.2
    show M.bind (Rend.cellBlock L re p.element) _ c = _
    unfold M.bind
    rw [hp]
    show M.bind (Rend.cellBlocks L re (cellEls l)) _ c = _
    unfold M.bind
    rw [blocks_written hL l fun q hq => h q (List.mem_cons_of_mem _ hq)]
    rfl

theorem tableCell_written {close : String} (hL : Boxes L close) {re : El → M Text} {c : Rend.Ctx} {l : List Item} (h : ∀ p ∈ l, Renders re c p) (col : Col) :
    Rend.tableCell L re (cellEls l) col c = .ok (cell (l, col), c) := by
  unfold Rend.tableCell
  show M.bind (Rend.cellBlocks L re (cellEls l)) _ c = _
  unfold M.bind
  rw [blocks_written hL l h]
  dsimp only
  unfold cell
  by_cases hs : col.style = "h".toList
  · rw [if_pos hs, if_pos (show col.style = ['h'] from hs)]
    exact headerCell_written' hL _ _ _
  · rw [if_neg hs, if_neg (show ¬ col.style = ['h'] from hs)]
    exact cell_written hL _ _ _

theorem rowCells_written {close : String} (hL : Boxes L close) {re : El → M Text} {c : Rend.Ctx} {cols : List Col} : ∀ (cells : List (List Item)) (i : Nat),
    (∀ l ∈ cells, ∀ p ∈ l, Renders re c p) → i + cells.length ≤ cols.length →
    Rend.rowCells L re cols i (cells.map cellEls) c = .ok ((cells.zip (cols.drop i)).flatMap cell, c)
  | [], _, _, _ => rfl
  | x :: l, i, h, hi => by
    have hi' : i < cols.length := by simp at hi; omega
    have hd : cols.drop i = cols[i] :: cols.drop (i + 1) := List.drop_eq_getElem_cons hi'
    show (match cols[i]? with | none => _ | some col => _ : M Text) c = _
    rw [List.getElem?_eq_getElem hi']
    show M.bind (Rend.tableCell L re (cellEls x) cols[i]) _ c = _
    unfold M.bind
    rw [tableCell_written hL (h x List.mem_cons_self)]
    show M.bind (Rend.rowCells L re cols (i + 1) (l.map cellEls)) _ c = _
    unfold M.bind
    rw [rowCells_written hL l (i + 1) (fun y hy => h y (List.mem_cons_of_mem _ hy)) (by simp at hi; omega), hd]
    rfl

theorem rows_written {close : String} (hL : Boxes L close) {re : El → M Text} {c : Rend.Ctx} {cols : List Col} : ∀ (rows : List (List (List Item))),
    (∀ r ∈ rows, r.length ≤ cols.length ∧ ∀ l ∈ r, ∀ p ∈ l, Renders re c p) →
    Rend.tableRows L re cols (rows.map (·.map cellEls)) c = .ok (rows.flatMap (row cols), c)
  | [], _ => rfl
  | r :: l, h => by
    obtain ⟨h1, h2⟩ := h r List.mem_cons_self
    show M.bind (Rend.rowCells L re cols 0 (r.map cellEls)) _ c = _
    unfold M.bind
    rw [rowCells_written hL r 0 h2 (by omega)]
    show M.bind (Rend.exec L (·.tableRow) _) _ c = _
    unfold M.bind
    rw [row_written hL]
    show M.bind (Rend.tableRows L re cols (l.map (·.map cellEls))) _ c = _
    unfold M.bind
    rw [rows_written hL l fun y hy => h y (List.mem_cons_of_mem _ hy)]
    rfl

/-! ### Header and footer -/

theorem headCells_written {re : El → M Text} {c : Rend.Ctx} {cols : List Col} {tm : Tmpl.Templates → Tmpl.Tm} {f : Piece × Col → Text}
    (hf : ∀ p col, RendersHead re c p → Rend.headCell L re tm (headEls p) col c = .ok (f (p, col), c)) : ∀ (cells : List Piece) (i : Nat),
    (∀ p ∈ cells, RendersHead re c p) → i + cells.length ≤ cols.length →
    Rend.headCells L re tm cols i (cells.map headEls) c = .ok ((cells.zip (cols.drop i)).flatMap f, c)
  | [], _, _, _ => rfl
  | x :: l, i, h, hi => by
    have hi' : i < cols.length := by simp at hi; omega
    have hd : cols.drop i = cols[i] :: cols.drop (i + 1) := List.drop_eq_getElem_cons hi'
    show (match cols[i % cols.length]? with | none => _ | some col => _ : M Text) c = _
    rw [Nat.mod_eq_of_lt hi', List.getElem?_eq_getElem hi']
    show M.bind (Rend.headCell L re tm (headEls x) cols[i]) _ c = _
    unfold M.bind
    rw [hf _ _ (h x List.mem_cons_self)]
    show M.bind (Rend.headCells L re tm cols (i + 1) (l.map headEls)) _ c = _
    unfold M.bind
    rw [headCells_written hf l (i + 1) (fun y hy => h y (List.mem_cons_of_mem _ hy)) (by simp at hi; omega), hd]
    rfl

theorem boxed_ne (tag : String) (col : Col) (t : Text) : boxed tag col t ≠ [] := by
  unfold boxed
  exact fun h => nomatch h

theorem flat_ne {f : Piece × Col → Text} (hf : ∀ x, f x ≠ []) {cells : List Piece} {cols : List Col} (hc : cells ≠ []) (hl : cells.length ≤ cols.length) :
    (cells.zip cols).flatMap f ≠ [] := by
  cases cells with
  | nil => exact absurd rfl hc
  | cons x l =>
    cases cols with
    | nil => simp at hl
    | cons y m =>
      intro h
      exact hf _ (List.append_eq_nil_iff.mp h).1

theorem header_edge {close : String} (hL : Boxes L close) {re : El → M Text} {c : Rend.Ctx} {cols : List Col} (o : Option (List Piece))
    (h : ∀ cells, o = some cells → cells.length ≤ cols.length ∧ ∀ p ∈ cells, RendersHead re c p) :
    Rend.headRow L re (·.tableHeader) (·.tableHeaderCell) cols (o.map (·.map headEls)) c = .ok (edge "thead" headCell cols o, c) := by
  cases o with
  | none => rfl
  | some cells =>
    obtain ⟨h1, h2⟩ := h cells rfl
    show M.bind (Rend.headCells L re (·.tableHeaderCell) cols 0 (cells.map headEls)) _ c = _
    unfold M.bind
    rw [headCells_written (f := headCell) (fun p col hp => by
      show M.bind (Rend.renderInline re p.1) _ c = _
      unfold M.bind
      rw [hp]
      exact headerCell_written hL _ _ _) cells 0 h2 (by omega)]
    show Rend.exec L (·.tableHeader) _ c = _
    rw [header_written hL, List.drop_zero]
    cases cells with
    | nil => rfl
    | cons x l =>
      rw [if_neg (flat_ne (f := headCell) (fun x => boxed_ne _ _ _) (List.cons_ne_nil _ _) h1)]
      unfold edge
      simp only [List.append_assoc]
      kernel_rfl

theorem footer_edge {close : String} (hL : Boxes L close) {re : El → M Text} {c : Rend.Ctx} {cols : List Col} (o : Option (List Piece))
    (h : ∀ cells, o = some cells → cells.length ≤ cols.length ∧ ∀ p ∈ cells, RendersHead re c p) :
    Rend.headRow L re (·.tableFooter) (·.tableFooterCell) cols (o.map (·.map headEls)) c = .ok (edge "tfoot" footCell cols o, c) := by
  cases o with
  | none => rfl
  | some cells =>
    obtain ⟨h1, h2⟩ := h cells rfl
    show M.bind (Rend.headCells L re (·.tableFooterCell) cols 0 (cells.map headEls)) _ c = _
    unfold M.bind
    rw [headCells_written (f := footCell) (fun p col hp => by
      show M.bind (Rend.renderInline re p.1) _ c = _
      unfold M.bind
      rw [hp]
      exact footerCell_written hL _ _ _) cells 0 h2 (by omega)]
    show Rend.exec L (·.tableFooter) _ c = _
    rw [footer_written hL, List.drop_zero]
    cases cells with
    | nil => rfl
    | cons x l =>
      rw [if_neg (flat_ne (f := footCell) (fun x => boxed_ne _ _ _) (List.cons_ne_nil _ _) h1)]
      unfold edge
      simp only [List.append_assoc]
      kernel_rfl

/-! ### Tables -/

theorem eachOf_flat {f : Text → Option Text} {g : Text → Text} (h : ∀ x, f x = some (g x)) : ∀ l, Tmpl.eachOf f l = some (l.flatMap g)
  | [] => rfl
  | x :: l => by
    show (f x).bind (fun t => (Tmpl.eachOf f l).map (t ++ ·)) = _
    rw [h, eachOf_flat h l]
    rfl

theorem eachOf_some {f : Text → Option Text} {g : Text → Text} {l : List Text} (h : f = fun x => some (g x)) : Tmpl.eachOf f l = some (l.flatMap g) :=
  eachOf_flat (fun x => by rw [h]) l

/-- The template of a column. -/
def columnTm (close : String) : Tmpl.Tm :=
  .text "<col" <| .cond (.is "$") (.text " style=\"width: " <| .out .asIs "$" <| .text "%;\"" .done) .done <| .text close .done

theorem column_written (lower : Text → Text) (close : String) (env : Tmpl.Env) (x : Text) :
    (columnTm close).render lower ((Tmpl.elemField, .str x) :: env) = some ("<col".toList ++ (if x = [] then [] else " style=\"width: ".toList ++ x ++ "%;\"".toList) ++ close.toList) := by
  cases x with
  | nil =>
    show some ("<col".toList ++ ([] ++ (close.toList ++ []))) = _
    rw [if_pos rfl, List.append_nil, List.append_nil, List.nil_append]
  | cons y l =>
    show some ("<col".toList ++ ((" style=\"width: ".toList ++ (y :: l ++ ("%;\"".toList ++ []))) ++ (close.toList ++ []))) = _
    rw [if_neg (List.cons_ne_nil _ _)]
    simp only [List.append_assoc, List.append_nil]

/-- The template of tables, with that of a column. -/
def tableWith (b : Tmpl.Tm) : Tmpl.Tm :=
  .text "<table " <|
  .cond (.is "ID") (.text "id=\"" <| .out .asIs "ID" <| .text "\" " .done) .done <|
  .text "class=\"tableblock frame-" <|
  .out .asIs "Frame" <|
  .text " grid-" <|
  .out .asIs "Grid" <|
  .cond (.is "Stripes") (.text " stripes-" <| .out .asIs "Stripes" .done) .done <|
  .cond (.is "Fit") (.text " " <| .out .asIs "Fit" .done) .done <|
  .cond (.is "Float") (.text " " <| .out .asIs "Float" .done) .done <|
  .cond (.is "Roles") (.text " " <| .out .asIs "Roles" .done) .done <|
  .text "\"" <|
  .cond (.is "Width") (.text " style=\"width: " <| .out .asIs "Width" <| .text "%;\"" .done) .done <|
  .text ">\n" <|
  .cond (.is "Title") (.text "<caption class=\"title\">" <| .out .asIs "Caption" <| .out .asIs "Title" <| .text "</caption>\n" .done) .done <|
  .cond (.is "Body") (.text "<colgroup>\n" <| .loop "Columns" b <| .text "</colgroup>\n" <| .out .asIs "Header" <| .out .asIs "Body" <| .out .asIs "Footer" .done) .done <|
  .text "</table>\n" .done

theorem table_of {close : String} (hL : Boxes L close) : ∃ e : String, L.tmpl.table = tableWith (columnTm e) ∧ e.toList = close.toList ++ "\n".toList := by
  rcases hL.table with ⟨h1, rfl⟩ | ⟨h1, rfl⟩
  · exact ⟨">\n", h1, by kernel_rfl⟩
  · exact ⟨"/>\n", h1, by kernel_rfl⟩

theorem text_step {lower : Text → Text} {env : Tmpl.Env} {k : Tmpl.Tm} {t : Text} (s : String) (h : k.render lower env = some t) :
    (Tmpl.Tm.text s k).render lower env = some (s.toList ++ t) := by
  show (k.render lower env).map _ = _
  rw [h]
  rfl

theorem done_step {lower : Text → Text} {env : Tmpl.Env} : Tmpl.Tm.done.render lower env = some [] := rfl

theorem out_step {lower : Text → Text} {env : Tmpl.Env} {k : Tmpl.Tm} {t v : Text} {f : String} (hf : env.get f = some (.str v)) (h : k.render lower env = some t) :
    (Tmpl.Tm.out .asIs f k).render lower env = some (v ++ t) := by
  show ((env.get f).bind Tmpl.Val.shown).bind _ = _
  rw [hf]
  show (k.render lower env).map _ = _
  rw [h]
  rfl

theorem cond_step {lower : Text → Text} {env : Tmpl.Env} {k a : Tmpl.Tm} {t v u : Text} {f : String} (hf : env.get f = some (.str v)) (ha : v ≠ [] → a.render lower env = some u)
    (h : k.render lower env = some t) : (Tmpl.Tm.cond (.is f) a .done k).render lower env = some ((if v = [] then [] else u) ++ t) := by
  show ((env.get f).map Tmpl.Val.truth).bind _ = _
  rw [hf]
  cases v with
  | nil =>
    show (some []).bind (fun t => (k.render lower env).map (t ++ ·)) = _
    rw [h]
    rfl
  | cons x l =>
    show (a.render lower env).bind (fun t => (k.render lower env).map (t ++ ·)) = _
    rw [ha (List.cons_ne_nil _ _), h]
    rfl

theorem number_step {lower : Text → Text} {env : Tmpl.Env} {k : Tmpl.Tm} {t : Text} {n : Int} {f : String} (hf : env.get f = some (.num n))
    (h : k.render lower env = some t) : (Tmpl.Tm.out .asIs f k).render lower env = some ((toString n).toList ++ t) := by
  show ((env.get f).bind Tmpl.Val.shown).bind _ = _
  rw [hf]
  show (k.render lower env).map _ = _
  rw [h]
  rfl

theorem zero_step {lower : Text → Text} {env : Tmpl.Env} {k a : Tmpl.Tm} {t u : Text} {n : Int} {f : String} (hf : env.get f = some (.num n)) (ha : a.render lower env = some u)
    (h : k.render lower env = some t) : (Tmpl.Tm.cond (.is f) a .done k).render lower env = some ((if n = 0 then [] else u) ++ t) := by
  show ((env.get f).map Tmpl.Val.truth).bind _ = _
  rw [hf]
  by_cases hn : n = 0
  · subst hn
    show (some []).bind (fun t => (k.render lower env).map (t ++ ·)) = _
    rw [h]
    rfl
  · show (if (n != 0) = true then a.render lower env else some []).bind (fun t => (k.render lower env).map (t ++ ·)) = _
    rw [if_neg hn, if_pos (by simpa using hn), ha, h]
    rfl

theorem loop_step {lower : Text → Text} {env : Tmpl.Env} {k b : Tmpl.Tm} {t : Text} {f : String} {l : List Text} {g : Text → Text} (hf : env.get f = some (.strs l))
    (hb : (fun x => b.render lower ((Tmpl.elemField, .str x) :: env)) = fun x => some (g x))
    (h : k.render lower env = some t) : (Tmpl.Tm.loop f b k).render lower env = some (l.flatMap g ++ t) := by
  unfold Tmpl.Tm.render
  rw [hf]
  dsimp only
  rw [eachOf_some hb, h]
  rfl

theorem table_written {close : String} (hL : Boxes L close) (id frame grid stripes fit float roles cap title header body footer : Text) (n : Int) (widths : List Text) (hb : body ≠ []) (c : Rend.Ctx) :
    Rend.exec L (·.table) [("ID", .str id), ("Title", .str title),
      ("Columns", .strs widths), ("Caption", .str cap), ("Roles", .str roles),
      ("Frame", .str frame), ("Grid", .str grid),
      ("Fit", .str fit), ("Float", .str float), ("Stripes", .str stripes),
      ("Width", .num n), ("Header", .str header), ("Body", .str body), ("Footer", .str footer)] c =
    .ok ("<table ".toList ++ (if id = [] then [] else "id=\"".toList ++ id ++ "\" ".toList) ++ "class=\"tableblock frame-".toList ++ frame ++ " grid-".toList ++ grid ++
      maybe " stripes-" stripes ++ maybe " " fit ++ maybe " " float ++ maybe " " roles ++ "\"".toList ++ (if n = 0 then [] else " style=\"width: ".toList ++ (toString n).toList ++ "%;\"".toList) ++ ">\n".toList ++ titled cap title ++ "<colgroup>\n".toList ++ widths.flatMap (column close) ++ "</colgroup>\n".toList ++
      header ++ body ++ footer ++ "</table>\n".toList, c) := by
  unfold Rend.exec
  dsimp only
  generalize he : ([("ID", .str id), ("Title", .str title),
      ("Columns", .strs widths), ("Caption", .str cap), ("Roles", .str roles),
      ("Frame", .str frame), ("Grid", .str grid),
      ("Fit", .str fit), ("Float", .str float), ("Stripes", .str stripes),
      ("Width", .num n), ("Header", .str header), ("Body", .str body), ("Footer", .str footer)] : Tmpl.Env) = env
  have g1 : AMap.get env "ID" = some (.str id) := by rw [← he]; rfl
  have g2 : AMap.get env "Title" = some (.str title) := by rw [← he]; rfl
  have g3 : AMap.get env "Columns" = some (.strs widths) := by rw [← he]; rfl
  have g4 : AMap.get env "Caption" = some (.str cap) := by rw [← he]; rfl
  have g5 : AMap.get env "Roles" = some (.str roles) := by rw [← he]; rfl
  have g6 : AMap.get env "Frame" = some (.str frame) := by rw [← he]; rfl
  have g7 : AMap.get env "Grid" = some (.str grid) := by rw [← he]; rfl
  have g8 : AMap.get env "Fit" = some (.str fit) := by rw [← he]; rfl
  have g9 : AMap.get env "Float" = some (.str float) := by rw [← he]; rfl
  have g10 : AMap.get env "Stripes" = some (.str stripes) := by rw [← he]; rfl
  have g11 : AMap.get env "Width" = some (.num n) := by rw [← he]; rfl
  have g12 : AMap.get env "Header" = some (.str header) := by rw [← he]; rfl
  have g13 : AMap.get env "Body" = some (.str body) := by rw [← he]; rfl
  have g14 : AMap.get env "Footer" = some (.str footer) := by rw [← he]; rfl
  obtain ⟨e2, h1, h2⟩ := table_of hL
  have hcol : (fun x => (columnTm e2).render L.lower ((Tmpl.elemField, .str x) :: env)) = fun x => some (column close x) := by
    funext x
    rw [column_written, h2]
    unfold column
    simp only [List.append_assoc]
  have h := text_step (lower := L.lower) (env := env) "<table " <|
    cond_step g1 (fun _ => text_step "id=\"" <| out_step g1 <| text_step "\" " done_step) <|
    text_step "class=\"tableblock frame-" <| out_step g6 <| text_step " grid-" <| out_step g7 <|
    cond_step g10 (fun _ => text_step " stripes-" <| out_step g10 done_step) <|
    cond_step g8 (fun _ => text_step " " <| out_step g8 done_step) <|
    cond_step g9 (fun _ => text_step " " <| out_step g9 done_step) <|
    cond_step g5 (fun _ => text_step " " <| out_step g5 done_step) <|
    text_step "\"" <|
    zero_step g11 (text_step " style=\"width: " <| number_step g11 <| text_step "%;\"" done_step) <|
    text_step ">\n" <|
    cond_step g2 (fun _ => text_step "<caption class=\"title\">" <| out_step g4 <| out_step g2 <| text_step "</caption>\n" done_step) <|
    cond_step g13 (fun _ => text_step "<colgroup>\n" <| loop_step g3 hcol <| text_step "</colgroup>\n" <| out_step g12 <| out_step g13 <| out_step g14 done_step) <|
    text_step "</table>\n" done_step
  rw [h1, show tableWith (columnTm e2) = _ from rfl]
  unfold tableWith
  rw [h, if_neg hb]
  show Except.ok (_, c) = _
  unfold maybe titled
  simp only [List.append_assoc, List.append_nil]

/-! ### The theorem -/

theorem columns_are {a : Attrs} {title : Option Text} {roles : List Text} {asked : List Col} (ha : Simple a title roles asked) (g : Grid) (c : Rend.Ctx) :
    Rend.columns a (g.rows.map (·.map cellEls)) c = .ok (Tables.columns asked g, c) := by
  have key : ∀ l : List Rend.Col, Rend.colsOf (l.map some) c = .ok (l.flatMap (fun d => List.replicate d.multiplier d), c) := by
    intro l
    induction l with
    | nil => rfl
    | cons d l ih =>
      show Rend.M.bind (Rend.colsOf (l.map some)) _ c = _
      unfold Rend.M.bind
      rw [ih]
      rfl
  have h : Rend.colsAttr (AMap.get a "cols") c = .ok (asked.flatMap (fun d => List.replicate d.multiplier d), c) := by
    rcases ha.cols with ⟨rfl, h⟩ | h
    · rw [h]; rfl
    · rw [h]; exact key asked
  have hl : ((g.rows.map (·.map cellEls)).headD []).length = (g.rows.headD []).length := by
    cases g.rows with
    | nil => rfl
    | cons r l => exact List.length_map _
  unfold Rend.columns
  show Rend.M.bind (Rend.colsAttr (AMap.get a "cols")) _ c = _
  unfold Rend.M.bind
  rw [h]
  show Except.ok (_ ++ List.replicate (_ - _) Rend.defaultCol, c) = _
  rw [hl]
  rfl

theorem text_value (sp : AV → Text) {a : Attrs} {k : String} (h : ∀ v, AMap.get a k = some v → ∃ t, v = .str t) (d : Text) : Rend.getStrD sp a k d = value a k d := by
  unfold Rend.getStrD value
  cases hk : AMap.get a k with
  | none => rfl
  | some v =>
    obtain ⟨t, rfl⟩ := h v hk
    rfl

theorem id_value (a : Attrs) : Rend.elementID a = ident a := by
  unfold Rend.elementID ident value
  cases h : AMap.get a "id" with
  | none => rfl
  | some v => cases v <;> rfl

theorem percent_eq (t : Text) : Tmpl.trimSuffix "%".toList t = percent t := by
  unfold percent
  rcases List.eq_nil_or_concat t with rfl | ⟨l, x, rfl⟩
  · rfl
  · rw [List.concat_eq_append, List.getLast?_append, List.dropLast_concat]
    show _ = if some x = some '%' then l else l ++ [x]
    unfold Tmpl.trimSuffix
    by_cases h : x = '%'
    · rw [h, if_pos rfl, if_pos (by rw [List.isSuffixOf_iff_suffix]; exact List.suffix_append _ _)]
      simp
    · rw [if_neg (fun e => h (Option.some.inj e)), if_neg]
      rw [List.isSuffixOf_iff_suffix]
      rintro ⟨m, hm⟩
      have := congrArg List.getLast? hm
      rw [show "%".toList = ['%'] from rfl, List.getLast?_concat, List.getLast?_concat] at this
      exact h (Option.some.inj this).symm

theorem joined : ∀ l : List Text, Rend.joinWith " ".toList l = spaced l
  | [] => rfl
  | [_] => rfl
  | t :: u :: l => by
    show t ++ " ".toList ++ Rend.joinWith " ".toList (u :: l) = t ++ ' ' :: spaced (u :: l)
    rw [joined (u :: l), List.append_assoc]
    rfl

theorem roles_shown (re : El → M Text) (c : Rend.Ctx) : ∀ l : List Text, Rend.rolesAll re (l.map .str) c = .ok (l, c)
  | [] => rfl
  | t :: l => by
    show M.bind (Rend.rolesAll re (l.map .str)) _ c = _
    unfold M.bind
    rw [roles_shown re c l]
    rfl

/-- A table is written row by row, header first and footer last, and in each row cell by cell, each as its column says. -/
theorem table_to_page {close : String} (hL : Boxes L close) {re : El → M Text} {a : Attrs} {title : Option Text} {roles : List Text} {asked : List Col} (ha : Simple a title roles asked) {g : Grid} {c₀ c : Rend.Ctx} {cap : Text} (hcap : Rend.optCaption title.isSome .table a c₀ = .ok (cap, c))
    (hg : Fits (Tables.columns asked g) g)
    (hr : ∀ r ∈ g.rows, ∀ l ∈ r, ∀ p ∈ l, Renders re c p)
    (hh : ∀ r, g.header = some r → ∀ p ∈ r, RendersHead re c p)
    (hf : ∀ r, g.footer = some r → ∀ p ∈ r, RendersHead re c p) :
    Rend.renderTable L re a (g.header.map (·.map headEls)) (g.rows.map (·.map cellEls)) (g.footer.map (·.map headEls)) c₀ = .ok (Tables.page close L.atoi L.widths a cap title roles asked g, c) := by
  have ht : Rend.has a "title" = title.isSome := by
    unfold Rend.has
    rw [show AMap.get a "title" = _ from ha.title]
    cases title <;> rfl
  have hro : Rend.elementRoles re a = fun c => .ok (spaced roles, c) := by
    funext c
    unfold Rend.elementRoles
    have e : Rend.rolesOf re a c = .ok (roles, c) := by
      unfold Rend.rolesOf
      rcases ha.roles with ⟨h0, h⟩ | h
      · rw [h, h0]; rfl
      · rw [h]; exact roles_shown re c roles
    show M.bind (Rend.rolesOf re a) _ c = _
    unfold M.bind
    rw [e, ← joined]
    rfl
  have hti : Rend.elementTitle re a = fun c => .ok (title.getD [], c) := by
    unfold Rend.elementTitle
    rw [show AMap.get a "title" = _ from ha.title]
    cases title <;> rfl
  have hb : g.rows.flatMap (row (Tables.columns asked g)) ≠ [] := by
    cases h : g.rows with
    | nil => exact absurd h hg.some
    | cons r l =>
      intro h
      have := (List.append_eq_nil_iff.mp h).1
      exact nomatch this
  unfold Rend.renderTable
  rw [text_value L.sprint (ha.text "width" (by decide +kernel)), percent_eq, ht, hro, hti, id_value,
    text_value L.sprint (ha.text "frame" (by decide +kernel)), text_value L.sprint (ha.text "grid" (by decide +kernel)),
    text_value L.sprint (ha.text "float" (by decide +kernel)), text_value L.sprint (ha.text "stripes" (by decide +kernel))]
  show M.bind (Rend.optCaption title.isSome .table a) _ c₀ = _
  unfold M.bind
  rw [hcap]
  show M.bind (Rend.columns a (g.rows.map (·.map cellEls))) _ c = _
  unfold M.bind
  rw [columns_are ha g c]
  show M.bind (Rend.headRow L re (·.tableHeader) (·.tableHeaderCell) (Tables.columns asked g) (g.header.map (·.map headEls))) _ c = _
  unfold M.bind
  rw [header_edge hL g.header fun r h => ⟨hg.header r h, hh r h⟩]
  show M.bind (Rend.headRow L re (·.tableFooter) (·.tableFooterCell) (Tables.columns asked g) (g.footer.map (·.map headEls))) _ c = _
  unfold M.bind
  rw [footer_edge hL g.footer fun r h => ⟨hg.footer r h, hf r h⟩]
  show M.bind (M.bind (Rend.tableRows L re (Tables.columns asked g) (g.rows.map (·.map cellEls))) _) _ c = _
  unfold M.bind
  rw [rows_written hL g.rows fun r h => ⟨hg.rows r h, hr r h⟩]
  dsimp only
  rw [body_written hL hb]
  refine (table_written hL (ident a) _ _ _ _ _ _ _ _ _ _ _ _ _ (fun h => absurd (List.append_eq_nil_iff.mp (List.append_eq_nil_iff.mp h).1).1 (by decide +kernel)) c).trans ?_
  unfold Tables.page Tables.html
  dsimp only
  generalize L.atoi (percent (value a "width" [])) = n
  rw [show (if (if n ≥ 100 then 0 else n) = 0 then [] else " style=\"width: ".toList ++ (toString (if n ≥ 100 then 0 else n)).toList ++ "%;\"".toList) = breadth n by
    unfold breadth
    by_cases h : 100 ≤ n
    · rw [if_pos (show n ≥ 100 from h), if_pos rfl, if_pos (Or.inr h)]
    · rw [if_neg (show ¬ n ≥ 100 from h)]
      by_cases h0 : n = 0
      · rw [if_pos h0, if_pos (Or.inl h0)]
      · rw [if_neg h0, if_neg (fun e => e.elim h0 h)]]
  rfl

/-! ### Captions -/

theorem skipped (old new : Text) : ∀ (n : Nat) (a b : Text), a.length = n → replaceAllAux old new n (a ++ b) = replaceAllAux old new 0 b
  | 0, [], b, _ => rfl
  | n + 1, _ :: a, b, h => skipped old new n a b (by simpa using h)
  | 0, _ :: _, _, h => nomatch h
  | _ + 1, [], _, h => nomatch h

theorem passed (x : Char) (r new : Text) : ∀ (a b : Text), x ∉ a → replaceAllAux (x :: r) new 0 (a ++ b) = a ++ replaceAllAux (x :: r) new 0 b
  | [], _, _ => rfl
  | d :: a, b, h => by
    have hd : ¬ x = d := fun e => h (by rw [e]; exact List.mem_cons_self)
    show (if (x :: r).isPrefixOf (d :: (a ++ b)) then _ else d :: replaceAllAux (x :: r) new 0 (a ++ b)) = _
    rw [if_neg (by simp [List.isPrefixOf, hd]), passed x r new a b fun hm => h (List.mem_cons_of_mem _ hm)]
    rfl

theorem replaced (x : Char) (r new a b : Text) (ha : x ∉ a) (hb : x ∉ b) : replaceAll (x :: r) new (a ++ (x :: r) ++ b) = a ++ new ++ b := by
  unfold replaceAll
  rw [if_neg (List.cons_ne_nil _ _), List.append_assoc, passed x r new a _ ha]
  show a ++ (if (x :: r).isPrefixOf (x :: (r ++ b)) then new ++ replaceAllAux (x :: r) new r.length (r ++ b) else _) = _
  have hb' := passed x r new b [] hb
  rw [List.append_nil] at hb'
  rw [if_pos (by rw [List.isPrefixOf_iff_prefix]; exact List.prefix_append (x :: r) b), skipped (x :: r) new _ r b rfl, hb', List.append_assoc]
  show a ++ (new ++ (b ++ [])) = _
  rw [List.append_nil]

theorem contained (x : Char) (r : Text) : ∀ (a b : Text), Captions.containsText (x :: r) (a ++ (x :: r) ++ b) = true
  | [], b => by
    show ((x :: r).isPrefixOf ((x :: r) ++ b) || _) = true
    rw [show (x :: r).isPrefixOf ((x :: r) ++ b) = true by rw [List.isPrefixOf_iff_prefix]; exact List.prefix_append (x :: r) b]
    rfl
  | d :: a, b => by
    show (_ || Captions.containsText (x :: r) (a ++ (x :: r) ++ b)) = true
    rw [contained x r a b, Bool.or_true]

theorem not_contained (x : Char) (r : Text) : ∀ (a : Text), x ∉ a → Captions.containsText (x :: r) a = false
  | [], _ => rfl
  | d :: a, h => by
    have hd : ¬ x = d := fun e => h (by rw [e]; exact List.mem_cons_self)
    show ((x :: r).isPrefixOf (d :: a) || Captions.containsText (x :: r) a) = false
    rw [not_contained x r a fun hm => h (List.mem_cons_of_mem _ hm)]
    simp [List.isPrefixOf, hd]

/-- How many tables had a number so far. -/
def count (c : Rend.Ctx) : Nat := (AMap.get c.counters "tableCounter").getD 0

/-- A table with a title has the label of tables and the next number as its caption; the next table has the number after it. -/
theorem caption_numbered {a : Attrs} {label : Text} {c : Rend.Ctx} (ha : AMap.get a "caption" = none) (hd : AMap.get c.attrs "table-caption" = some (.str label)) (hl : label ≠ [])
    (hb : '{' ∉ label) : ∃ c', Rend.optCaption true .table a c = .ok (label ++ " ".toList ++ itoa (count c + 1) ++ ". ".toList, c') ∧ count c' = count c + 1 ∧
      c' = { c with counters := AMap.set c.counters "tableCounter" (count c + 1) } := by
  refine ⟨_, ?_, ?_, rfl⟩
  · have ht : Rend.captionText .table a c.attrs = label ++ " ".toList ++ Captions.Kind.table.placeholder ++ ". ".toList := by
      unfold Rend.captionText Rend.getStr
      rw [ha, show AMap.get c.attrs (Captions.Kind.captionAttr .table) = _ from hd]
      dsimp only
      rw [if_neg hl]
    obtain ⟨r, hr⟩ : ∃ r, Captions.Kind.table.placeholder = '{' :: r := ⟨_, rfl⟩
    have hsp : '{' ∉ label ++ " ".toList := by
      intro h
      rcases List.mem_append.mp h with h | h
      · exact hb h
      · revert h; decide
    show (if Captions.containsText Captions.Kind.table.placeholder (Rend.captionText .table a c.attrs) = true then _ else _ : M Text) c = _
    rw [ht, hr, if_pos (contained _ _ _ _)]
    show Except.ok (replaceAll ('{' :: r) (itoa (Captions.getAndIncrement c.counters "tableCounter").1) (label ++ " ".toList ++ ('{' :: r) ++ ". ".toList),
      ({ c with counters := (Captions.getAndIncrement c.counters "tableCounter").2 } : Rend.Ctx)) = _
    rw [replaced _ _ _ _ _ hsp (by decide)]
    have hg : Captions.getAndIncrement c.counters "tableCounter" = (count c + 1, AMap.set c.counters "tableCounter" (count c + 1)) := by
      unfold Captions.getAndIncrement count
      cases h : AMap.get c.counters "tableCounter" <;> rfl
    rw [hg]
  · show (AMap.get (AMap.set c.counters "tableCounter" (count c + 1)) "tableCounter").getD 0 = _
    rw [AMap.get_set_self]
    rfl

/-- A caption of its own is shown instead, and no number is used. -/
theorem caption_own {a : Attrs} {t : Text} {c : Rend.Ctx} (ha : AMap.get a "caption" = some (.str t)) (hb : '{' ∉ t) : Rend.optCaption true .table a c = .ok (t, c) := by
  have ht : Rend.captionText .table a c.attrs = t := by
    unfold Rend.captionText Rend.getStr
    rw [ha]
  show (if Captions.containsText Captions.Kind.table.placeholder (Rend.captionText .table a c.attrs) = true then _ else _ : M Text) c = _
  rw [ht, if_neg (by rw [show Captions.Kind.table.placeholder = '{' :: "counter:table-number}".toList from rfl, not_contained _ _ _ hb]; exact Bool.false_ne_true)]
  rfl

/-- Without a label, there is no caption, and no number is used. -/
theorem caption_none {a : Attrs} {c : Rend.Ctx} (ha : AMap.get a "caption" = none) (hd : AMap.get c.attrs "table-caption" = none) : Rend.optCaption true .table a c = .ok ([], c) := by
  have ht : Rend.captionText .table a c.attrs = [] := by
    unfold Rend.captionText Rend.getStr
    rw [ha, show AMap.get c.attrs (Captions.Kind.captionAttr .table) = _ from hd]
  show (if Captions.containsText Captions.Kind.table.placeholder (Rend.captionText .table a c.attrs) = true then _ else _ : M Text) c = _
  rw [ht]
  rfl

end Verif.C77
