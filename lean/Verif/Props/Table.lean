import Verif.Model.Table
/-!
C26 — table cells are distributed over rows without loss.
-/
namespace Verif.C26
open Verif.Table

/-! ### Specification -/

/-- All rows of a table as displayed: header, body, footer. -/
def rowsOf {α : Type} (t : Table α) : List (List α) := t.header.toList ++ t.rows ++ t.footer.toList

/-- The cells of the source, in order. -/
def sourceCells {α : Type} : List (Line α) → List α
  | [] => []
  | .row cs :: ls => cs ++ sourceCells ls
  | .blank :: ls => sourceCells ls

/-- Every row has `n` cells, except that the last one may have fewer (but not zero). -/
def Full {α : Type} (n : Nat) (rows : List (List α)) : Prop :=
  (∀ r ∈ rows.dropLast, r.length = n) ∧ ∀ r ∈ rows.getLast?, 0 < r.length ∧ r.length ≤ n

/-- The number of columns: as given by the `cols` attribute (the sum of the multipliers), otherwise the number of cells of the first
line with cells. -/
def columnCount {α : Type} (cols : Option (List Int)) (lines : List (Line α)) : Int :=
  match cols with
  | some cs => cs.sum
  | none => match lines.findSome? (fun l => match l with
      | .row cs => some cs.length
      | .blank => none) with
    | some n => n
    | none => 1

/-- A header is asked for by an option, or by a blank line after the first row. -/
def wantsHeader {α : Type} (hdr : Bool) (lines : List (Line α)) : Bool :=
  hdr || (match lines with
    | .row _ :: .blank :: _ :: _ => true
    | _ => false)

/-- The grammar yields no empty rows (parser.peg:2614 `+`, 2633 `+`). -/
def Parsed {α : Type} (lines : List (Line α)) : Prop := ∀ cs, .row cs ∈ lines → cs ≠ []

/-! ### Lemmas -/

theorem cellsOf_source {α : Type} : ∀ ls : List (Line α), cellsOf ls = sourceCells ls
  | [] => rfl
  | .row cs :: ls => by show cs ++ cellsOf ls = cs ++ sourceCells ls; rw [cellsOf_source ls]
  | .blank :: ls => cellsOf_source ls

theorem size_sum (cols : List Int) : size cols = cols.sum := by
  have : ∀ (a : Int), cols.foldl (fun a m => a + m) a = a + cols.sum := by
    induction cols with
    | nil => intro a; simp
    | cons c cs ih => intro a; rw [List.foldl_cons, ih, List.sum_cons]; omega
  unfold size
  rw [this]; omega

theorem dispatch_flatten {α : Type} (n : Nat) (hn : 0 < n) : ∀ (fuel : Nat) (cells : List α), cells.length ≤ fuel → (dispatch n fuel cells).flatten = cells
  | 0, cells, h => by
    have : cells = [] := List.length_eq_zero_iff.1 (by omega)
    subst this; rfl
  | fuel + 1, [], _ => rfl
  | fuel + 1, c :: cs, h => by
    show ((c :: cs).take n :: dispatch n fuel ((c :: cs).drop n)).flatten = _
    rw [List.flatten_cons, dispatch_flatten n hn fuel _ (by
      rw [List.length_drop]; simp only [List.length_cons] at h ⊢; omega), List.take_append_drop]

theorem full_cons {α : Type} (n : Nat) (r : List α) (rows : List (List α)) (hr : r.length = n) (hn : 0 < n) (h : Full n rows) : Full n (r :: rows) := by
  cases rows with
  | nil => exact ⟨by simp, by intro x hx; simp at hx; subst hx; omega⟩
  | cons s rows =>
    refine ⟨?_, ?_⟩
    · intro x hx
      rw [List.dropLast_cons₂] at hx
      rcases List.mem_cons.1 hx with rfl | hx
      · exact hr
      · exact h.1 x hx
    · intro x hx
      rw [List.getLast?_cons_cons] at hx
      exact h.2 x hx

theorem dispatch_nil {α : Type} (n fuel : Nat) : dispatch n fuel ([] : List α) = [] := by cases fuel <;> rfl

theorem dispatch_full {α : Type} (n : Nat) (hn : 0 < n) : ∀ (fuel : Nat) (cells : List α), cells.length ≤ fuel → Full n (dispatch n fuel cells)
  | 0, cells, h => ⟨(by intro r hr; cases hr), (by intro r hr; cases hr)⟩
  | fuel + 1, [], _ => ⟨(by intro r hr; cases hr), (by intro r hr; cases hr)⟩
  | fuel + 1, c :: cs, h => by
    show Full n ((c :: cs).take n :: dispatch n fuel ((c :: cs).drop n))
    have hl : ((c :: cs).drop n).length ≤ fuel := by
      rw [List.length_drop]; simp only [List.length_cons] at h ⊢; omega
    by_cases hd : (c :: cs).drop n = []
    · rw [hd, dispatch_nil]
      refine ⟨by simp, ?_⟩
      intro r hr
      simp at hr
      subst hr
      rw [List.length_take]
      simp only [List.length_cons]
      omega
    · have hlen : n < (c :: cs).length := by
        rcases Nat.lt_or_ge n (c :: cs).length with h' | h'
        · exact h'
        · exact absurd (List.drop_eq_nil_of_le h') hd
      exact full_cons n _ _ (by rw [List.length_take]; omega) hn (dispatch_full n hn fuel _ hl)

/-- The number of rows. -/
theorem dispatch_count {α : Type} (n : Nat) (hn : 0 < n) (fuel : Nat) (cells : List α) (h : cells.length ≤ fuel) :
    (dispatch n fuel cells = [] ↔ cells = []) ∧ ((dispatch n fuel cells).length ≤ 1 ↔ cells.length ≤ n) := by
  cases fuel with
  | zero =>
    have : cells = [] := List.length_eq_zero_iff.1 (by omega)
    subst this
    exact ⟨⟨fun _ => rfl, fun _ => rfl⟩, ⟨fun _ => by simp, fun _ => by simp [dispatch]⟩⟩
  | succ fuel =>
    cases cells with
    | nil => exact ⟨⟨fun _ => rfl, fun _ => rfl⟩, ⟨fun _ => by simp, fun _ => by simp [dispatch]⟩⟩
    | cons c cs =>
      have hl : ((c :: cs).drop n).length ≤ fuel := by
        rw [List.length_drop]; simp only [List.length_cons] at h ⊢; omega
      have e : dispatch n (fuel + 1) (c :: cs) = (c :: cs).take n :: dispatch n fuel ((c :: cs).drop n) := rfl
      refine ⟨⟨fun h => (by rw [e] at h; cases h), fun h => (by cases h)⟩, ?_⟩
      rw [e]
      constructor
      · intro hle
        have : dispatch n fuel ((c :: cs).drop n) = [] := by
          simp only [List.length_cons] at hle
          exact List.length_eq_zero_iff.1 (by omega)
        have hf := dispatch_flatten n hn fuel ((c :: cs).drop n) hl
        rw [this] at hf
        have := congrArg List.length hf
        rw [List.length_drop] at this
        simp only [List.flatten_nil, List.length_nil] at this
        omega
      · intro hle
        rw [List.drop_eq_nil_of_le hle, dispatch_nil]
        simp

theorem takeHeader_rows {α : Type} (opt : Bool) (t : Table α) : rowsOf (takeHeader opt t) = rowsOf t := by
  unfold takeHeader
  obtain ⟨h, f, rows⟩ := t
  cases h <;> cases rows <;> cases opt <;> simp [rowsOf]

theorem takeFooter_rows {α : Type} (opt : Bool) (t : Table α) : rowsOf (takeFooter opt t) = rowsOf t := by
  unfold takeFooter
  obtain ⟨h, f, rows⟩ := t
  cases f with
  | some f => rfl
  | none =>
    dsimp only
    cases hl : rows.getLast? with
    | none => rfl
    | some r =>
      cases opt with
      | false => rfl
      | true =>
        have : rows.dropLast ++ [r] = rows := by
          have hne : rows ≠ [] := by intro e; simp [e] at hl
          have := List.getLast?_eq_some_getLast hne
          rw [hl] at this
          rw [Option.some.inj this]
          exact List.dropLast_concat_getLast hne
        simp only [rowsOf, if_true, Option.toList_some, Option.toList_none, List.append_nil, List.append_assoc]
        rw [this]

theorem reorganize_rows {α : Type} (hdr ftr : Bool) (t : Table α) : rowsOf (reorganize hdr ftr t) = rowsOf t := by
  unfold reorganize; rw [takeFooter_rows, takeHeader_rows]

theorem takeFooter_header {α : Type} (opt : Bool) (t : Table α) : (takeFooter opt t).header = t.header := by
  unfold takeFooter
  split
  · split <;> rfl
  · rfl

theorem takeHeader_footer {α : Type} (opt : Bool) (t : Table α) : (takeHeader opt t).footer = t.footer := by
  unfold takeHeader
  split
  · split <;> rfl
  · rfl

theorem explicit_wants {α : Type} (lines : List (Line α)) : (explicitHeader lines).isSome = wantsHeader false lines := by
  unfold explicitHeader wantsHeader
  split
  · rfl
  · rename_i hx
    split
    · rename_i h l ls
      exact absurd rfl (hx _ _ _)
    · rfl

theorem wants_or {α : Type} (hdr : Bool) (lines : List (Line α)) : wantsHeader hdr lines = (hdr || (explicitHeader lines).isSome) := by
  rw [explicit_wants]; simp [wantsHeader]

theorem firstLength_count {α : Type} : ∀ lines : List (Line α), (firstLength lines : Int) = columnCount none lines
  | [] => rfl
  | .row cs :: ls => rfl
  | .blank :: ls => by
    have := firstLength_count ls
    show (firstLength ls : Int) = _
    rw [this]
    rfl

theorem firstLength_pos {α : Type} : ∀ lines : List (Line α), Parsed lines → 0 < firstLength lines
  | [], _ => by simp [firstLength]
  | .row cs :: ls, h => List.length_pos_iff.2 (h cs (by simp))
  | .blank :: ls, h => firstLength_pos ls (fun cs hc => h cs (by simp [hc]))

theorem organize_pos {α : Type} (cells : List α) (n : Nat) (hn : 0 < n) : organize cells n = some (dispatch n cells.length cells) := by
  unfold organize
  rw [if_neg (by omega), if_neg (by omega)]
  simp

/-- What the parser creates. -/
theorem newTable_spec {α : Type} (lines : List (Line α)) (hp : Parsed lines) :
    ∃ t, newTable lines = some t ∧ (rowsOf t).flatten = sourceCells lines ∧ Full (columnCount none lines).toNat (rowsOf t) ∧
      t.footer = none ∧ t.header.isSome = (explicitHeader lines).isSome ∧ ∀ h ∈ t.header, h ≠ [] := by
  unfold newTable
  cases he : explicitHeader lines with
  | some p =>
    obtain ⟨h, ls⟩ := p
    have hlines : ∃ l ls', lines = .row h :: .blank :: l :: ls' ∧ ls = l :: ls' := by
      unfold explicitHeader at he
      split at he
      · rename_i h' l ls'
        cases he
        exact ⟨l, ls', rfl, rfl⟩
      · cases he
    obtain ⟨l, ls', rfl, rfl⟩ := hlines
    have hh : h ≠ [] := hp h (by simp)
    have hpos := List.length_pos_iff.2 hh
    dsimp only
    rw [organize_pos _ _ hpos]
    refine ⟨_, rfl, ?_, ?_, rfl, rfl, ?_⟩
    · show (([h] ++ dispatch _ _ _) ++ []).flatten = h ++ sourceCells (l :: ls')
      rw [List.append_nil, List.singleton_append, List.flatten_cons, dispatch_flatten _ hpos _ _ (Nat.le_refl _), cellsOf_source]
    · show Full h.length (([h] ++ dispatch _ _ _) ++ [])
      rw [List.append_nil, List.singleton_append]
      exact full_cons _ _ _ rfl hpos (dispatch_full _ hpos _ _ (Nat.le_refl _))
    · intro x hx
      cases hx
      exact hh
  | none =>
    dsimp only
    have hpos := firstLength_pos lines hp
    have hc : (columnCount none lines).toNat = firstLength lines := by rw [← firstLength_count]; rfl
    cases lines with
    | nil => exact ⟨_, rfl, rfl, ⟨by simp [rowsOf], by simp [rowsOf]⟩, rfl, rfl, by intro h hh; cases hh⟩
    | cons l ls =>
      dsimp only
      rw [organize_pos _ _ hpos]
      refine ⟨_, rfl, ?_, ?_, rfl, rfl, by intro h hh; cases hh⟩
      · show (([] ++ dispatch _ _ _) ++ []).flatten = sourceCells (l :: ls)
        rw [List.append_nil, List.nil_append, dispatch_flatten _ hpos _ _ (Nat.le_refl _), cellsOf_source]
      · show Full _ (([] ++ dispatch _ _ _) ++ [])
        rw [List.append_nil, List.nil_append, hc]
        exact dispatch_full _ hpos _ _ (Nat.le_refl _)

theorem allCells_rows {α : Type} (t : Table α) : allCells t = (rowsOf t).flatten := by
  obtain ⟨h, f, rows⟩ := t
  cases h <;> cases f <;> simp [allCells, rowsOf]

theorem restoreHeader_rows {α : Type} (want : Bool) (t t' : Table α) (ht : t.header.isSome = true → want = true)
    (h : restoreHeader want t = some t') :
    t'.header.toList ++ t'.rows = t.rows ∧ t'.footer = t.footer ∧ t'.header.isSome = want := by
  unfold restoreHeader at h
  cases want with
  | true =>
    rw [if_pos rfl] at h
    cases hr : t.rows with
    | nil => rw [hr] at h; cases h
    | cons r rs => rw [hr] at h; cases h; exact ⟨rfl, rfl, rfl⟩
  | false =>
    rw [if_neg (by simp)] at h
    cases h
    cases hh : t.header with
    | none => exact ⟨by simp, rfl, by simp⟩
    | some x => exact absurd (ht (by simp [hh])) (by simp)

theorem restoreFooter_rows {α : Type} (want : Bool) (t t' : Table α) (ht : t.footer.isSome = true → want = true)
    (h : restoreFooter want t = some t') :
    t'.rows ++ t'.footer.toList = t.rows ∧ t'.header = t.header ∧ t'.footer.isSome = want := by
  unfold restoreFooter at h
  cases want with
  | true =>
    rw [if_pos rfl] at h
    cases hl : t.rows.getLast? with
    | none => rw [hl] at h; cases h
    | some r =>
      rw [hl] at h; cases h
      refine ⟨?_, rfl, rfl⟩
      have hne : t.rows ≠ [] := by intro e; simp [e] at hl
      have := List.getLast?_eq_some_getLast hne
      rw [hl] at this
      show t.rows.dropLast ++ [r] = t.rows
      rw [Option.some.inj this]
      exact List.dropLast_concat_getLast hne
  | false =>
    rw [if_neg (by simp)] at h
    cases h
    cases hh : t.footer with
    | none => exact ⟨by simp, rfl, by simp⟩
    | some x => exact absurd (ht (by simp [hh])) (by simp)

theorem setColumns_rows {α : Type} (hdr ftr : Bool) (cols : List Int) (t t' : Table α) (h : setColumns hdr ftr cols t = some t') :
    ∃ rows, organize (allCells t) (size cols) = some rows ∧ rowsOf t' = rows ∧ t'.header.isSome = (t.header.isSome || hdr) ∧
      t'.footer.isSome = (t.footer.isSome || ftr) := by
  unfold setColumns at h
  cases ho : organize (allCells t) (size cols) with
  | none => rw [ho] at h; cases h
  | some rows =>
    rw [ho] at h
    dsimp only at h
    cases hh : restoreHeader (t.header.isSome || hdr) { t with rows := rows } with
    | none => rw [hh] at h; cases h
    | some t1 =>
      rw [hh] at h
      dsimp only at h
      obtain ⟨a1, a2, a3⟩ := restoreHeader_rows _ _ _ (by intro e; simp only at e; simp [e]) hh
      obtain ⟨b1, b2, b3⟩ := restoreFooter_rows _ _ _ (by intro e; rw [a2] at e; simp only at e; simp [e]) h
      refine ⟨rows, rfl, ?_, by rw [b2, a3], b3⟩
      unfold rowsOf
      rw [List.append_assoc, b1, b2, a1]

theorem organize_some {α : Type} (cells : List α) (n : Int) (rows : List (List α)) (h : organize cells n = some rows) :
    rows.flatten = cells ∧ Full n.toNat rows := by
  unfold organize at h
  split at h
  · cases h
  · split at h
    · split at h
      · rename_i he
        cases h
        rw [List.isEmpty_iff] at he
        subst he
        exact ⟨rfl, by simp, by simp⟩
      · cases h
    · cases h
      have hn : 0 < n.toNat := by omega
      exact ⟨dispatch_flatten _ hn _ _ (Nat.le_refl _), dispatch_full _ hn _ _ (Nat.le_refl _)⟩

/-! ### Theorems -/

/-- C26: the cells of a table, row by row, are the cells of the source in order. -/
theorem cells_kept {α : Type} (hdr ftr : Bool) (cols : Option (List Int)) (lines : List (Line α)) (hp : Parsed lines) (t : Table α)
    (h : process hdr ftr cols lines = some t) : (rowsOf t).flatten = sourceCells lines := by
  obtain ⟨t0, h0, hc, _⟩ := newTable_spec lines hp
  unfold process at h
  rw [h0] at h
  cases cols with
  | none => cases h; rw [reorganize_rows, hc]
  | some cols =>
    dsimp only at h
    obtain ⟨rows, ho, hr, _⟩ := setColumns_rows _ _ _ _ _ h
    rw [hr, (organize_some _ _ _ ho).1, allCells_rows, reorganize_rows, hc]

/-- C26: every row has as many cells as there are columns, except that the last one may have fewer. -/
theorem rows_full {α : Type} (hdr ftr : Bool) (cols : Option (List Int)) (lines : List (Line α)) (hp : Parsed lines) (t : Table α)
    (h : process hdr ftr cols lines = some t) : Full (columnCount cols lines).toNat (rowsOf t) := by
  obtain ⟨t0, h0, hc, hf, _⟩ := newTable_spec lines hp
  unfold process at h
  rw [h0] at h
  cases cols with
  | none => cases h; rw [reorganize_rows]; exact hf
  | some cols =>
    dsimp only at h
    obtain ⟨rows, ho, hr, _⟩ := setColumns_rows _ _ _ _ _ h
    rw [hr]
    have := (organize_some _ _ _ ho).2
    rw [size_sum] at this
    exact this

theorem rowsOf_nil_cells {α : Type} (n : Nat) (t : Table α) (hf : Full n (rowsOf t)) : rowsOf t = [] ↔ (rowsOf t).flatten = [] := by
  constructor
  · intro h; rw [h]; rfl
  · intro h
    cases hr : rowsOf t with
    | nil => rfl
    | cons r rs =>
      exfalso
      have hl := List.getLast?_eq_some_getLast (show rowsOf t ≠ [] by rw [hr]; simp)
      have := (hf.2 _ hl).1
      have hm := List.getLast_mem (show rowsOf t ≠ [] by rw [hr]; simp)
      have he := List.flatten_eq_nil_iff.1 h _ hm
      rw [he] at this
      simp at this

theorem takeHeader_isSome {α : Type} (opt : Bool) (t : Table α) :
    (takeHeader opt t).header.isSome = (t.header.isSome || (opt && !t.rows.isEmpty)) := by
  obtain ⟨h, f, rows⟩ := t
  cases h <;> cases rows <;> cases opt <;> simp [takeHeader]

/-- C26: the first row is the header if that is asked for by an option, or by a blank line after it. -/
theorem header_iff {α : Type} (hdr ftr : Bool) (cols : Option (List Int)) (lines : List (Line α)) (hp : Parsed lines) (t : Table α)
    (h : process hdr ftr cols lines = some t) :
    t.header = if wantsHeader hdr lines then (rowsOf t).head? else none := by
  have key : t.header.isSome = (wantsHeader hdr lines && !(rowsOf t).isEmpty) := by
    obtain ⟨t0, h0, hc, hf, hft, hh, hne⟩ := newTable_spec lines hp
    unfold process at h
    rw [h0] at h
    have hr0 : (reorganize hdr ftr t0).header.isSome = (wantsHeader hdr lines && !(rowsOf t0).isEmpty) := by
      unfold reorganize
      rw [takeFooter_header, takeHeader_isSome, hh, wants_or]
      cases hx : (explicitHeader lines).isSome with
      | true =>
        rw [hx] at hh
        obtain ⟨y, hy⟩ := Option.isSome_iff_exists.1 hh
        simp [rowsOf, hy]
      | false =>
        rw [hx] at hh
        have hy : t0.header = none := by simpa using hh
        simp [rowsOf, hy, hft]
    cases cols with
    | none => cases h; rw [reorganize_rows]; exact hr0
    | some cols =>
      dsimp only at h
      obtain ⟨rows, ho, hr, hs, _⟩ := setColumns_rows _ _ _ _ _ h
      rw [hs, hr0]
      have hcells : (rowsOf t).flatten = (rowsOf t0).flatten := by
        rw [hr, (organize_some _ _ _ ho).1, allCells_rows, reorganize_rows]
      have hfull : Full (size cols).toNat (rowsOf t) := by rw [hr]; exact (organize_some _ _ _ ho).2
      have e : (rowsOf t).isEmpty = (rowsOf t0).isEmpty := by
        have h1 := rowsOf_nil_cells _ t hfull
        have h2 := rowsOf_nil_cells _ t0 hf
        rw [hcells, ← h2] at h1
        cases hx : rowsOf t0 with
        | nil => rw [h1.2 hx]
        | cons a b =>
          cases hy : rowsOf t with
          | nil => exact absurd (h1.1 hy) (by rw [hx]; simp)
          | cons _ _ => rfl
      rw [e, wants_or]
      cases hdr with
      | false => simp
      | true =>
        cases hx : (rowsOf t0).isEmpty with
        | false => simp
        | true =>
          exfalso
          rw [hx] at e
          have : t.header.isSome = true := by rw [hs]; simp
          obtain ⟨y, hy⟩ := Option.isSome_iff_exists.1 this
          simp [rowsOf, hy] at e
  cases hw : wantsHeader hdr lines with
  | false =>
    rw [hw] at key
    rw [if_neg (by simp)]
    simpa using key
  | true =>
    rw [if_pos rfl]
    cases hd : t.header with
    | some r => simp [rowsOf, hd]
    | none =>
      rw [hd, hw] at key
      have : rowsOf t = [] := by simpa using key
      rw [this]; rfl

theorem takeFooter_isSome {α : Type} (opt : Bool) (t : Table α) :
    (takeFooter opt t).footer.isSome = (t.footer.isSome || (opt && !t.rows.isEmpty)) := by
  obtain ⟨h, f, rows⟩ := t
  cases f with
  | some f => simp [takeFooter]
  | none =>
    cases rows with
    | nil => simp [takeFooter]
    | cons r rs =>
      have hl := List.getLast?_eq_some_getLast (show r :: rs ≠ [] by simp)
      cases opt <;> simp [takeFooter, hl]

/-- C26: the last row is the footer if that is asked for, unless it is the header. -/
theorem footer_iff {α : Type} (hdr ftr : Bool) (cols : Option (List Int)) (lines : List (Line α)) (hp : Parsed lines) (t : Table α)
    (h : process hdr ftr cols lines = some t) :
    t.footer = if ftr && decide (t.header.toList.length < (rowsOf t).length) then (rowsOf t).getLast? else none := by
  have key : t.footer.isSome = (ftr && decide (t.header.toList.length < (rowsOf t).length)) := by
    obtain ⟨t0, h0, hc, hf, hft, hh, hne⟩ := newTable_spec lines hp
    unfold process at h
    rw [h0] at h
    cases cols with
    | none =>
      cases h
      rw [reorganize_rows]
      have e1 : (reorganize hdr ftr t0).footer.isSome = (ftr && !(takeHeader hdr t0).rows.isEmpty) := by
        unfold reorganize
        rw [takeFooter_isSome, takeHeader_footer, hft]; rfl
      have e2 : (reorganize hdr ftr t0).header = (takeHeader hdr t0).header := by
        unfold reorganize; rw [takeFooter_header]
      rw [e1, e2, ← takeHeader_rows hdr t0]
      unfold rowsOf
      rw [takeHeader_footer, hft]
      cases (takeHeader hdr t0).rows <;> simp
    | some cols =>
      dsimp only at h
      obtain ⟨rows, ho, hr, hs, hs'⟩ := setColumns_rows _ _ _ _ _ h
      have hff : (reorganize hdr ftr t0).footer.isSome = true → ftr = true := by
        intro e
        unfold reorganize at e
        rw [takeFooter_isSome, takeHeader_footer, hft] at e
        simp at e
        exact e.1
      have e3 : t.footer.isSome = ftr := by
        rw [hs']
        cases hx : (reorganize hdr ftr t0).footer.isSome with
        | false => simp
        | true => rw [hff hx]; rfl
      rw [e3]
      cases ftr with
      | false => rfl
      | true =>
        obtain ⟨y, hy⟩ := Option.isSome_iff_exists.1 e3
        simp only [rowsOf, hy, Option.toList_some, List.length_append, List.length_singleton, Bool.true_and]
        symm
        apply decide_eq_true
        omega
  cases hw : (ftr && decide (t.header.toList.length < (rowsOf t).length)) with
  | false =>
    rw [hw] at key
    rw [if_neg (by simp)]
    simpa using key
  | true =>
    rw [hw] at key
    rw [if_pos rfl]
    obtain ⟨y, hy⟩ := Option.isSome_iff_exists.1 key
    rw [hy]
    simp [rowsOf, hy]

theorem restoreHeader_none {α : Type} (want : Bool) (t : Table α) : restoreHeader want t = none ↔ want = true ∧ t.rows = [] := by
  unfold restoreHeader
  cases want with
  | false => simp
  | true => cases t.rows <;> simp

theorem restoreFooter_none {α : Type} (want : Bool) (t : Table α) : restoreFooter want t = none ↔ want = true ∧ t.rows = [] := by
  unfold restoreFooter
  cases want with
  | false => simp
  | true =>
    cases hr : t.rows with
    | nil => simp
    | cons r rs =>
      rw [List.getLast?_eq_some_getLast (show r :: rs ≠ [] by simp)]
      simp

/-- `SetColumnDefinitions` panics if the rows cannot be formed, or if there are not enough of them for the header and the footer. -/
theorem setColumns_none {α : Type} (hdr ftr : Bool) (cols : List Int) (t : Table α) :
    setColumns hdr ftr cols t = none ↔ organize (allCells t) (size cols) = none ∨
      ∃ rows, organize (allCells t) (size cols) = some rows ∧
        (((t.header.isSome || hdr) = true ∧ rows = []) ∨
         ((t.footer.isSome || ftr) = true ∧ (rows = [] ∨ ((t.header.isSome || hdr) = true ∧ rows.length ≤ 1)))) := by
  unfold setColumns
  cases ho : organize (allCells t) (size cols) with
  | none => simp
  | some rows =>
    dsimp only
    cases hh : restoreHeader (t.header.isSome || hdr) { t with rows := rows } with
    | none =>
      have := (restoreHeader_none _ _).1 hh
      simp only [true_iff]
      exact Or.inr ⟨rows, rfl, Or.inl this⟩
    | some t1 =>
      obtain ⟨a1, a2, a3⟩ := restoreHeader_rows _ _ _ (by intro e; simp only at e; simp [e]) hh
      have a1 : t1.header.toList ++ t1.rows = rows := a1
      have hnn : ¬ ((t.header.isSome || hdr) = true ∧ rows = []) := by
        intro hx
        have := (restoreHeader_none (t.header.isSome || hdr) { t with rows := rows }).2 hx
        rw [this] at hh; cases hh
      dsimp only
      rw [restoreFooter_none]
      constructor
      · rintro ⟨hw, hr⟩
        refine Or.inr ⟨rows, rfl, Or.inr ⟨hw, ?_⟩⟩
        rw [hr, List.append_nil] at a1
        cases hd : t1.header with
        | none => left; rw [← a1, hd]; rfl
        | some x =>
          right
          rw [hd] at a3
          refine ⟨a3.symm, ?_⟩
          rw [← a1, hd]; simp
      · rintro (hc | ⟨rows', hr', hx⟩)
        · cases hc
        · cases hr'
          rcases hx with hx | ⟨hw, hx⟩
          · exact absurd hx hnn
          · refine ⟨hw, ?_⟩
            rcases hx with hx | ⟨hw', hx⟩
            · subst hx
              simpa using (List.append_eq_nil_iff.1 a1).2
            · have : t1.header.isSome = true := by rw [a3, hw']
              obtain ⟨y, hy⟩ := Option.isSome_iff_exists.1 this
              rw [hy] at a1
              have := congrArg List.length a1
              simp only [Option.toList_some, List.length_append, List.length_singleton] at this
              exact List.length_eq_zero_iff.1 (by omega)

/-- C26: when processing a table panics (and with it the conversion of the document): only if there is a `cols` attribute, and
* it denotes no columns at all; or a negative number of columns, for a table with cells;
* or a header or footer is asked for in a table without cells;
* or both are asked for, but the cells do not fill more than one row. -/
theorem panics_iff {α : Type} (hdr ftr : Bool) (cols : Option (List Int)) (lines : List (Line α)) (hp : Parsed lines) :
    process hdr ftr cols lines = none ↔ ∃ cs, cols = some cs ∧
      (cs.sum = 0 ∨ (cs.sum < 0 ∧ sourceCells lines ≠ []) ∨ (sourceCells lines = [] ∧ (wantsHeader hdr lines = true ∨ ftr = true)) ∨
       (wantsHeader hdr lines = true ∧ ftr = true ∧ (sourceCells lines).length ≤ cs.sum.toNat)) := by
  obtain ⟨t0, h0, hc, hf, hft, hh, hne⟩ := newTable_spec lines hp
  unfold process
  rw [h0]
  cases cols with
  | none => simp
  | some cols =>
    dsimp only
    have hcells : allCells (reorganize hdr ftr t0) = sourceCells lines := by rw [allCells_rows, reorganize_rows, hc]
    have hhdr : ((reorganize hdr ftr t0).header.isSome || hdr) = wantsHeader hdr lines := by
      unfold reorganize
      rw [takeFooter_header, takeHeader_isSome, hh, wants_or]
      cases hdr <;> cases (explicitHeader lines).isSome <;> simp
    have hftr : ((reorganize hdr ftr t0).footer.isSome || ftr) = ftr := by
      unfold reorganize
      rw [takeFooter_isSome, takeHeader_footer, hft]
      cases ftr <;> simp
    rw [setColumns_none, hcells, hhdr, hftr, size_sum]
    constructor
    · intro h
      refine ⟨cols, rfl, ?_⟩
      rcases Int.lt_trichotomy cols.sum 0 with hs | hs | hs
      · by_cases he : sourceCells lines = []
        · right; right; left
          refine ⟨he, ?_⟩
          have ho : organize (sourceCells lines) cols.sum = some [] := by
            unfold organize; rw [if_neg (by omega), if_pos hs, he]; rfl
          rw [ho] at h
          rcases h with h | ⟨rows, hr, h⟩
          · cases h
          · rcases h with ⟨h, _⟩ | ⟨h, _⟩
            · exact Or.inl h
            · exact Or.inr h
        · exact Or.inr (Or.inl ⟨hs, he⟩)
      · exact Or.inl hs
      · right; right
        have hpos : 0 < cols.sum.toNat := by omega
        have ho := organize_pos (sourceCells lines) cols.sum.toNat hpos
        rw [Int.toNat_of_nonneg (by omega)] at ho
        rw [ho] at h
        obtain ⟨d1, d2⟩ := dispatch_count cols.sum.toNat hpos (sourceCells lines).length (sourceCells lines) (Nat.le_refl _)
        rcases h with h | ⟨rows, hr, h⟩
        · cases h
        · cases hr
          rcases h with ⟨h, hr⟩ | ⟨h, hr⟩
          · exact Or.inl ⟨d1.1 hr, Or.inl h⟩
          · rcases hr with hr | ⟨hw, hr⟩
            · exact Or.inl ⟨d1.1 hr, Or.inr h⟩
            · exact Or.inr ⟨hw, h, d2.1 hr⟩
    · rintro ⟨cs, hcs, h⟩
      cases hcs
      rcases Int.lt_trichotomy cols.sum 0 with hs | hs | hs
      · by_cases he : sourceCells lines = []
        · have ho : organize (sourceCells lines) cols.sum = some [] := by
            unfold organize; rw [if_neg (by omega), if_pos hs, he]; rfl
          right
          refine ⟨[], ho, ?_⟩
          rcases h with h | ⟨_, h⟩ | ⟨_, h | h⟩ | ⟨h, h', _⟩
          · omega
          · exact absurd he h
          · exact Or.inl ⟨h, rfl⟩
          · exact Or.inr ⟨h, Or.inl rfl⟩
          · exact Or.inl ⟨h, rfl⟩
        · left
          unfold organize
          rw [if_neg (by omega), if_pos hs, if_neg (by simpa using he)]
      · left; unfold organize; rw [if_pos hs]
      · have hpos : 0 < cols.sum.toNat := by omega
        have ho := organize_pos (sourceCells lines) cols.sum.toNat hpos
        rw [Int.toNat_of_nonneg (by omega)] at ho
        obtain ⟨d1, d2⟩ := dispatch_count cols.sum.toNat hpos (sourceCells lines).length (sourceCells lines) (Nat.le_refl _)
        right
        refine ⟨_, ho, ?_⟩
        rcases h with h | ⟨h, _⟩ | ⟨he, h | h⟩ | ⟨h, h', hl⟩
        · omega
        · omega
        · exact Or.inl ⟨h, d1.2 he⟩
        · exact Or.inr ⟨h, Or.inl (d1.2 he)⟩
        · exact Or.inr ⟨h', Or.inr ⟨h, d2.2 hl⟩⟩

theorem sum_le_expand (cols : List Int) : cols.sum.toNat ≤ expand cols := by
  have : cols.sum ≤ (expand cols : Int) := by
    induction cols with
    | nil => simp [expand]
    | cons c cs ih =>
      have e : expand (c :: cs) = c.toNat + expand cs := rfl
      rw [List.sum_cons, e]
      omega
  omega

theorem full_le {α : Type} (n : Nat) (rows : List (List α)) (h : Full n rows) : ∀ r ∈ rows, r.length ≤ n := by
  intro r hr
  by_cases hne : rows = []
  · rw [hne] at hr; cases hr
  · rw [← List.dropLast_concat_getLast hne] at hr
    rcases List.mem_append.1 hr with hr | hr
    · rw [h.1 r hr]; exact Nat.le_refl _
    · rw [List.mem_singleton.1 hr]
      exact (h.2 _ (List.getLast?_eq_some_getLast hne)).2

/-- The first row of the body is as long as any other. -/
theorem full_first {α : Type} (n : Nat) (pre post : List (List α)) (r : List α) (rs : List (List α)) (h : Full n (pre ++ (r :: rs) ++ post)) :
    ∀ x ∈ r :: rs, x.length ≤ r.length := by
  intro x hx
  have hle := full_le n _ h x (by simp only [List.mem_append]; exact Or.inl (Or.inr hx))
  by_cases hpost : rs ++ post = []
  · have : rs = [] := (List.append_eq_nil_iff.1 hpost).1
    subst this
    rw [List.mem_singleton.1 hx]
    exact Nat.le_refl _
  · have hm : r ∈ (pre ++ (r :: rs) ++ post).dropLast := by
      have e : pre ++ (r :: rs) ++ post = (pre ++ [r]) ++ (rs ++ post) := by simp
      rw [e, List.dropLast_append_of_ne_nil hpost]
      simp
    rw [h.1 r hm]; exact hle

theorem columns_ge {α : Type} (cols : Option (List Int)) (t : Table α) (r : List α) (rs : List (List α)) (hr : t.rows = r :: rs) :
    r.length ≤ columns cols t := by
  unfold columns
  rw [hr]
  cases cols with
  | none => dsimp only; split <;> omega
  | some cs => dsimp only; split <;> omega

/-- C26: the renderer panics for no table, except for one without `cols` attribute that has a header or a footer but no other row. -/
theorem renders_iff {α : Type} (hdr ftr : Bool) (cols : Option (List Int)) (lines : List (Line α)) (hp : Parsed lines) (t : Table α)
    (h : process hdr ftr cols lines = some t) :
    renders cols t = false ↔ cols = none ∧ t.rows = [] ∧ (t.header.isSome = true ∨ t.footer.isSome = true) := by
  have hfull := rows_full hdr ftr cols lines hp t h
  have hcells := cells_kept hdr ftr cols lines hp t h
  have hrows : t.rows.all (rowOK (columns cols t)) = true := by
    rw [List.all_eq_true]
    intro x hx
    cases hr : t.rows with
    | nil => rw [hr] at hx; cases hx
    | cons r rs =>
      have hf := hfull
      unfold rowsOf at hf
      rw [hr] at hf hx
      have := full_first _ _ _ _ _ hf x hx
      have := columns_ge cols t r rs hr
      unfold rowOK
      apply decide_eq_true
      omega
  have hne : ∀ r, t.header = some r ∨ t.footer = some r → r ≠ [] := by
    intro r hr e
    have hm : r ∈ rowsOf t := by
      unfold rowsOf
      rcases hr with hr | hr <;> simp [hr]
    by_cases hnil : rowsOf t = []
    · rw [hnil] at hm; cases hm
    · rw [← List.dropLast_concat_getLast hnil] at hm
      have hlast := hfull.2 _ (List.getLast?_eq_some_getLast hnil)
      rcases List.mem_append.1 hm with hm | hm
      · have := hfull.1 r hm
        rw [e, List.length_nil] at this
        omega
      · rw [List.mem_singleton.1 hm] at e
        rw [e] at hlast; simp at hlast
  have hedge : ∀ o : Option (List α), (∀ r, o = some r → r ≠ []) → (edgeOK (columns cols t) o = false ↔ columns cols t = 0 ∧ o.isSome = true) := by
    intro o ho
    cases o with
    | none => simp [edgeOK]
    | some r =>
      have := ho r rfl
      simp [edgeOK, this]
  have e1 := hedge t.header (fun r hr => hne r (Or.inl hr))
  have e2 := hedge t.footer (fun r hr => hne r (Or.inr hr))
  have hren : renders cols t = false ↔ columns cols t = 0 ∧ (t.header.isSome = true ∨ t.footer.isSome = true) := by
    unfold renders
    rw [hrows, Bool.and_true, Bool.and_eq_false_iff, e1, e2]
    constructor
    · rintro (⟨h1, h2⟩ | ⟨h1, h2⟩)
      · exact ⟨h1, Or.inl h2⟩
      · exact ⟨h1, Or.inr h2⟩
    · rintro ⟨h1, h2 | h2⟩
      · exact Or.inl ⟨h1, h2⟩
      · exact Or.inr ⟨h1, h2⟩
  rw [hren]
  constructor
  · rintro ⟨hc, hs⟩
    have hsome : rowsOf t ≠ [] := by
      unfold rowsOf
      rcases hs with hs | hs
      · obtain ⟨y, hy⟩ := Option.isSome_iff_exists.1 hs; simp [hy]
      · obtain ⟨y, hy⟩ := Option.isSome_iff_exists.1 hs; simp [hy]
    have hr : t.rows = [] := by
      cases hr : t.rows with
      | nil => rfl
      | cons r rs =>
        exfalso
        -- the first row of the body has at least one cell
        have hrpos : 0 < r.length := by
          have hm : r ∈ rowsOf t := by unfold rowsOf; rw [hr]; simp
          rw [← List.dropLast_concat_getLast hsome] at hm
          have hlast := hfull.2 _ (List.getLast?_eq_some_getLast hsome)
          rcases List.mem_append.1 hm with hm | hm
          · rw [hfull.1 r hm]; omega
          · rw [List.mem_singleton.1 hm]; exact hlast.1
        have := columns_ge cols t r rs hr
        omega
    refine ⟨?_, hr, hs⟩
    cases cols with
    | none => rfl
    | some cs =>
      exfalso
      have hlast := hfull.2 _ (List.getLast?_eq_some_getLast hsome)
      have hx : (columnCount (some cs) lines).toNat = cs.sum.toNat := rfl
      rw [hx] at hlast
      have := sum_le_expand cs
      unfold columns at hc
      rw [hr] at hc
      have hc : expand cs = 0 := hc
      omega
  · rintro ⟨rfl, hr, hs⟩
    refine ⟨?_, hs⟩
    unfold columns
    rw [hr]

/-! ### Examples and findings -/

/-- `|a |b`, blank line, `|c`, `|d |e`. -/
def exampleLines : List (Line Char) := [.row ['a', 'b'], .blank, .row ['c'], .row ['d', 'e']]

example : Parsed exampleLines := by
  intro cs h
  simp [exampleLines] at h
  rcases h with rfl | rfl | rfl <;> simp
example : process false true none exampleLines = some ⟨some ['a', 'b'], some ['e'], [['c', 'd']]⟩ := rfl
example : process false false (some [3, 1]) exampleLines = some ⟨some ['a', 'b', 'c', 'd'], none, [['e']]⟩ := rfl
example : renders none (⟨some ['a', 'b'], some ['e'], [['c', 'd']]⟩ : Table Char) = true := rfl
example : columnCount (some [3, 1]) exampleLines = 4 := rfl

/-- Finding: the conversion of a document panics for a table with a `cols` attribute of zero columns (`cols="0*"`), for one with
`%header%footer` and a single row, and for an empty one with `cols` and `%header`. -/
theorem finding_panics :
    process false false (some [0]) exampleLines = none ∧
    process true true (some [2]) [.row ['a', 'b']] = none ∧
    process true false (some [2]) ([] : List (Line Char)) = none := ⟨rfl, rfl, rfl⟩

/-- Finding: a table with a `%header` option and nothing but that row panics in the renderer (modulo zero). -/
theorem finding_header_only :
    ∃ t : Table Char, process true false none [.row ['a', 'b']] = some t ∧ renders none t = false := ⟨_, rfl, rfl⟩

end Verif.C26
