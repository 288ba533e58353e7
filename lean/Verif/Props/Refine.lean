import Verif.Model.Refine

/-!
# C61 — Refinement: the content of blocks and cells is parsed once more, everything else is left alone
-/
namespace Verif
namespace C61
open Walk (Any Fragment)
open Refine

/-! ### The bound does not matter -/

theorem all_mono {f g : Any → Out Any} : ∀ {es : List Any}, (∀ e ∈ es, f e ≠ .more → g e = f e) → refineAll f es ≠ .more → refineAll g es = refineAll f es
  | [], _, _ => rfl
  | e :: es, h, hm => by
    have he := h e List.mem_cons_self
    have ih := all_mono (es := es) (fun x hx => h x (List.mem_cons_of_mem _ hx))
    unfold refineAll at hm ⊢
    cases hf : f e with
    | more => rw [hf] at hm; exact absurd rfl hm
    | error => rw [he (by rw [hf]; exact fun h => nomatch h), hf]
    | done x =>
      rw [he (by rw [hf]; exact fun h => nomatch h), hf]
      rw [hf] at hm
      dsimp only at hm ⊢
      rw [ih (fun h => by rw [h] at hm; exact hm rfl)]

theorem refine_mono (R : Reader) : ∀ (n : Nat) (e : Any), refine R n e ≠ .more → refine R (n + 1) e = refine R n e
  | 0, _, h => absurd rfl h
  | n + 1, e, h => by
    have ih := fun x => refine_mono R n x
    cases e with
    | group k a es =>
      conv => lhs; unfold refine
      conv => rhs; unfold refine
      unfold refine at h
      dsimp only at h ⊢
      by_cases hk : R.lists k = true
      · rw [if_pos hk] at h ⊢
        rw [if_pos hk]
        have := all_mono (f := refine R n) (g := refine R (n + 1)) (es := es) (fun x _ => ih x) (fun hm => by rw [hm] at h; exact h rfl)
        rw [this]
      · rw [if_neg hk, if_neg hk]
    | continuation o x =>
      conv => lhs; unfold refine
      conv => rhs; unfold refine
      unfold refine at h
      dsimp only at h ⊢
      rw [ih x (fun hm => by rw [hm] at h; exact h rfl)]
    | block k a es =>
      conv => lhs; unfold refine
      conv => rhs; unfold refine
      unfold refine at h
      dsimp only at h ⊢
      by_cases hk : nests k = true
      · rw [if_pos hk] at h ⊢
        rw [if_pos hk]
        cases hr : reparse R es with
        | none => rfl
        | some ys =>
          rw [hr] at h
          dsimp only at h ⊢
          have := all_mono (f := refine R n) (g := refine R (n + 1)) (es := ys) (fun x _ => ih x) (fun hm => by rw [hm] at h; exact h rfl)
          rw [this]
      · rw [if_neg hk, if_neg hk]
    | _ => rfl

/-- **C61**: there is one result. -/
theorem one_result (R : Reader) {n m : Nat} {e : Any} (hn : refine R n e ≠ .more) (hm : refine R m e ≠ .more) : refine R n e = refine R m e := by
  have up : ∀ k n, refine R n e ≠ .more → refine R (n + k) e = refine R n e := by
    intro k
    induction k with
    | zero => intros; rfl
    | succ k ih =>
      intro n hn
      have h1 := ih n hn
      have := refine_mono R (n + k) e (by rw [h1]; exact hn)
      rw [← Nat.add_assoc, this, h1]
  rcases Nat.le_total n m with h | h
  · obtain ⟨k, rfl⟩ := Nat.exists_eq_add_of_le h
    exact (up k n hn).symm
  · obtain ⟨k, rfl⟩ := Nat.exists_eq_add_of_le h
    exact up k m hm

/-! ### It ends -/

mutual
/-- How much there is left to parse in an element: for a block, its text. -/
def mass (R : Reader) : Any → Nat
  | .group k _ es => if R.lists k then 1 + masses R es else 0
  | .continuation _ e => 1 + mass R e
  | .block k _ es => if nests k then 1 + (Walk.serializeLoop 0 es).1.length else 0
  | _ => 0
/-- The largest. -/
def masses (R : Reader) : List Any → Nat
  | [] => 0
  | e :: es => max (mass R e) (masses R es)
end

theorem mass_le {R : Reader} {es : List Any} {e : Any} (h : e ∈ es) : mass R e ≤ masses R es := by
  induction es with
  | nil => cases h
  | cons x es ih =>
    show mass R e ≤ max (mass R x) (masses R es)
    rcases List.mem_cons.mp h with rfl | h
    · exact Nat.le_max_left _ _
    · exact Nat.le_trans (ih h) (Nat.le_max_right _ _)

mutual
/-- The content of the blocks that are to be parsed consists of lines of text. -/
def Raw (R : Reader) : Any → Prop
  | .group k _ es => R.lists k = true → Raws R es
  | .continuation _ e => Raw R e
  | .block k _ es => nests k = true → ∀ e ∈ es, ∃ t, e = .raw t
  | _ => True
/-- In all elements. -/
def Raws (R : Reader) : List Any → Prop
  | [] => True
  | e :: es => Raw R e ∧ Raws R es
end

theorem raw_mem {R : Reader} {es : List Any} (h : Raws R es) {e : Any} (he : e ∈ es) : Raw R e := by
  induction es with
  | nil => cases he
  | cons x es ih =>
    rcases List.mem_cons.mp he with rfl | he
    · exact h.1
    · exact ih h.2 he

/-- What a parser finds in a text has less to parse than the text (a block is shorter than the text by its delimiters, an element of a list by
its marker), and blocks have lines of text. -/
def Shrinks (R : Reader) : Prop := ∀ t es, R.parse t = some (.slice es) → ∀ e ∈ es, Raw R e ∧ mass R e ≤ t.length

theorem restore_raws (es : List Any) (h : ∀ e ∈ es, ∃ t, e = .raw t) : Walk.restore [] es = es := by
  induction es with
  | nil => rfl
  | cons e es ih =>
    obtain ⟨t, rfl⟩ := h e List.mem_cons_self
    show _ :: Walk.restore [] es = _
    rw [ih (fun x hx => h x (List.mem_cons_of_mem _ hx))]
    rfl

mutual
theorem restored {R : Reader} : ∀ (e : Any), Raw R e → Raw R (Walk.restoreOne [] e) ∧ mass R (Walk.restoreOne [] e) ≤ mass R e
  | .group k a es, h => by
    show (R.lists k = true → Raws R (Walk.restore [] es)) ∧ (if R.lists k then 1 + masses R (Walk.restore [] es) else 0) ≤ if R.lists k then 1 + masses R es else 0
    by_cases hk : R.lists k = true
    · have := restoreds es (h hk)
      rw [if_pos hk, if_pos hk]
      exact ⟨fun _ => this.1, by omega⟩
    · rw [if_neg hk]
      exact ⟨fun h => absurd h hk, by omega⟩
  | .block k a es, h => by
    by_cases hk : nests k = true
    · show Raw R (.block k a (Walk.restore [] es)) ∧ mass R (.block k a (Walk.restore [] es)) ≤ _
      rw [restore_raws es (h hk)]
      exact ⟨h, Nat.le_refl _⟩
    · refine ⟨fun h => absurd h hk, ?_⟩
      show (if nests k then _ else 0) ≤ _
      rw [if_neg hk]; omega
  | .continuation _ _, h => ⟨h, Nat.le_refl _⟩
  | .holder r, _ => ⟨trivial, Nat.le_refl _⟩
  | .paragraph _ _, _ => ⟨trivial, Nat.le_refl _⟩
  | .labeled _ _ _ _, _ => ⟨trivial, Nat.le_refl _⟩
  | .cell _ _, _ => ⟨trivial, Nat.le_refl _⟩
  | .header _ _ _, _ => ⟨trivial, Nat.le_refl _⟩
  | .table _ _ _ _, _ => ⟨trivial, Nat.le_refl _⟩
  | .nil, _ | .text _, _ | .plain _, _ | .fullName _ _ _, _ | .slice _, _ | .roles _, _ | .options _, _ | .ref _, _ | .counter _ _ _, _ | .str _, _
  | .raw _, _ | .special _, _ | .dash, _ | .anchor _, _ | .column _, _ | .leaf _, _ | .closed _ _, _ | .passthrough _, _ | .located _ _ _, _
  | .section _ _ _, _ | .declare _ _, _ | .reset _, _ | .authors _, _ | .revision _ _ _, _ | .frontMatter _, _ => ⟨trivial, Nat.le_refl _⟩
theorem restoreds {R : Reader} : ∀ (es : List Any), Raws R es → Raws R (Walk.restore [] es) ∧ masses R (Walk.restore [] es) ≤ masses R es
  | [], _ => ⟨trivial, Nat.le_refl _⟩
  | e :: es, h => by
    have h1 := restored e h.1
    have h2 := restoreds es h.2
    refine ⟨⟨h1.1, h2.1⟩, ?_⟩
    show max (mass R (Walk.restoreOne [] e)) (masses R (Walk.restore [] es)) ≤ max (mass R e) (masses R es)
    omega
end

theorem serialize_raws (n : Nat) (es : List Any) (h : ∀ e ∈ es, ∃ t, e = .raw t) : (Walk.serializeLoop n es).2 = [] := by
  induction es with
  | nil => rfl
  | cons e es ih =>
    obtain ⟨t, rfl⟩ := h e List.mem_cons_self
    exact ih (fun x hx => h x (List.mem_cons_of_mem _ hx))

theorem mem_dropNils {es : List Any} {e : Any} (h : e ∈ dropNils es) : e ∈ es := by
  unfold dropNils at h
  exact List.mem_reverse.mp ((List.dropWhile_sublist _).subset (List.mem_reverse.mp h))

theorem mem_restore {es : List Any} {store : List (Text × Any)} {e : Any} (h : e ∈ Walk.restore store es) : ∃ x ∈ es, e = Walk.restoreOne store x := by
  induction es with
  | nil => cases h
  | cons x es ih =>
    rcases List.mem_cons.mp h with rfl | h
    · exact ⟨x, List.mem_cons_self, rfl⟩
    · obtain ⟨y, hy, e⟩ := ih h
      exact ⟨y, List.mem_cons_of_mem _ hy, e⟩

theorem reparsed {R : Reader} (hR : Shrinks R) {es zs : List Any} (hes : ∀ e ∈ es, ∃ t, e = .raw t) (h : reparse R es = some zs) :
    ∀ e ∈ zs, Raw R e ∧ mass R e ≤ (Walk.serializeLoop 0 es).1.length := by
  intro e he
  unfold reparse at h
  dsimp only at h
  rw [serialize_raws 0 es hes] at h
  cases hp : R.parse (Walk.serializeLoop 0 es).1 with
  | none => rw [hp] at h; cases h
  | some v =>
    rw [hp] at h
    cases v with
    | slice xs =>
      cases h
      obtain ⟨x, hx, rfl⟩ := mem_restore he
      obtain ⟨h1, h2⟩ := hR _ _ hp x (mem_dropNils hx)
      have := restored x h1
      exact ⟨this.1, by omega⟩
    | _ => cases h

theorem all_ends {f : Any → Out Any} : ∀ {es : List Any}, (∀ e ∈ es, f e ≠ .more) → refineAll f es ≠ .more
  | [], _ => fun h => nomatch h
  | e :: es, h => by
    have he := h e List.mem_cons_self
    have ih := all_ends (es := es) (fun x hx => h x (List.mem_cons_of_mem _ hx))
    unfold refineAll
    cases hf : f e with
    | more => exact absurd hf he
    | error => exact fun h => nomatch h
    | done x =>
      dsimp only
      cases hr : refineAll f es with
      | more => exact absurd hr ih
      | error => exact fun h => nomatch h
      | done x => exact fun h => nomatch h

/-- **C61**: the refinement of an element ends. -/
theorem ends {R : Reader} (hR : Shrinks R) : ∀ (n : Nat) (e : Any), Raw R e → mass R e < n → refine R n e ≠ .more
  | 0, _, _, h => absurd h (Nat.not_lt_zero _)
  | n + 1, e, hraw, h => by
    have ih := fun x => ends hR n x
    cases e with
    | group k a es =>
      unfold refine
      dsimp only
      by_cases hk : R.lists k = true
      · rw [if_pos hk]
        unfold mass at h
        rw [if_pos hk] at h
        have := all_ends (f := refine R n) (es := es) (fun x hx => ih x (raw_mem (hraw hk) hx) (by have := mass_le (R := R) hx; omega))
        cases hr : refineAll (refine R n) es with
        | more => exact absurd hr this
        | error => exact fun h => nomatch h
        | done x => exact fun h => nomatch h
      · rw [if_neg hk]; exact fun h => nomatch h
    | continuation o x =>
      unfold refine
      dsimp only
      unfold mass at h
      have := ih x hraw (by omega)
      cases hr : refine R n x with
      | more => exact absurd hr this
      | error => exact fun h => nomatch h
      | done x => exact fun h => nomatch h
    | block k a es =>
      unfold refine
      dsimp only
      by_cases hk : nests k = true
      · rw [if_pos hk]
        unfold mass at h
        rw [if_pos hk] at h
        cases hp : reparse R es with
        | none => exact fun h => nomatch h
        | some zs =>
          dsimp only
          have := all_ends (f := refine R n) (es := zs) (fun x hx => by
            have := reparsed hR (hraw hk) hp x hx
            exact ih x this.1 (by omega))
          cases hr : refineAll (refine R n) zs with
          | more => exact absurd hr this
          | error => exact fun h => nomatch h
          | done x => exact fun h => nomatch h
      · rw [if_neg hk]; exact fun h => nomatch h
    | table a hd rows f =>
      unfold refine
      dsimp only
      cases refineTable R a hd rows f <;> exact fun h => nomatch h
    | _ => exact fun h => nomatch h

/-! ### What is changed, and what is not -/

/-- The elements that are looked into: the elements of lists and what is attached to them, tables, and blocks of examples, quotes, sidebars and open ones. -/
def Looked (R : Reader) : Any → Prop
  | .group k _ _ => R.lists k = true
  | .continuation _ _ => True
  | .table _ _ _ _ => True
  | .block k _ _ => k = .example_ ∨ k = .quote ∨ k = .sidebar ∨ k = .open_
  | _ => False

/-- **C61**: everything else is left as it is: paragraphs, sections, and the content of verbatim blocks. -/
theorem others_unchanged {R : Reader} {e : Any} (h : ¬ Looked R e) (n : Nat) : refine R (n + 1) e = .done e := by
  cases e with
  | group k a es =>
    unfold refine
    exact if_neg h
  | continuation o x => exact absurd trivial h
  | block k a es =>
    unfold refine
    refine if_neg (fun hk => h ?_)
    cases k <;> first | exact absurd hk (by decide) | exact .inl rfl | exact .inr (.inl rfl) | exact .inr (.inr (.inl rfl)) | exact .inr (.inr (.inr rfl))
  | table a h' rows f => exact absurd trivial h
  | _ => rfl

/-- A cell of a table, with its content in one paragraph. -/
def wrapped : Any → Any
  | .cell f es => .cell f [.paragraph [] es]
  | e => e

/-- A cell whose content is text, not a document. -/
def Textual (R : Reader) : Any → Prop
  | .cell f _ => R.asciidoc f = false
  | _ => False

theorem cells_wrapped {R : Reader} : ∀ {cs : List Any}, (∀ c ∈ cs, Textual R c) → refineCells R cs = some (cs.map wrapped)
  | [], _ => rfl
  | c :: cs, h => by
    have hc : refineCell R c = some (wrapped c) := by
      have := h c List.mem_cons_self
      cases c with
      | cell f es =>
        unfold refineCell
        exact if_neg (by rw [show R.asciidoc f = false from this]; decide)
      | _ => exact this.elim
    unfold refineCells
    rw [hc, cells_wrapped (cs := cs) (fun x hx => h x (List.mem_cons_of_mem _ hx))]
    rfl

theorem rows_wrapped {R : Reader} : ∀ {rs : List (List Any)}, (∀ r ∈ rs, ∀ c ∈ r, Textual R c) → refineRows R rs = some (rs.map (·.map wrapped))
  | [], _ => rfl
  | r :: rs, h => by
    unfold refineRows
    rw [cells_wrapped (h r List.mem_cons_self), rows_wrapped (rs := rs) (fun x hx => h x (List.mem_cons_of_mem _ hx))]
    rfl

theorem row_wrapped {R : Reader} {r : Option (List Any)} (h : ∀ cs, r = some cs → ∀ c ∈ cs, Textual R c) : refineRow R r = some (r.map (·.map wrapped)) := by
  cases r with
  | none => rfl
  | some cs => unfold refineRow; dsimp only; rw [cells_wrapped (h cs rfl)]; rfl

/-- **C61**: in a table, the content of each cell (in the header, the rows and the footer) becomes one paragraph; nothing else changes. -/
theorem table_cells {R : Reader} {a : Walk.Attrs} {h : Option (List Any)} {rows : List (List Any)} {f : Option (List Any)}
    (hh : ∀ cs, h = some cs → ∀ c ∈ cs, Textual R c) (hr : ∀ r ∈ rows, ∀ c ∈ r, Textual R c) (hf : ∀ cs, f = some cs → ∀ c ∈ cs, Textual R c) (n : Nat) :
    refine R (n + 1) (.table a h rows f) = .done (.table a (h.map (·.map wrapped)) (rows.map (·.map wrapped)) (f.map (·.map wrapped))) := by
  unfold refine
  dsimp only
  unfold refineTable
  rw [row_wrapped hh, rows_wrapped hr, row_wrapped hf]
  rfl

/-- **C61**: the content of a block is parsed as a document is, in order, and refined in turn; its kind and attributes are kept. If it cannot be
parsed, the fragment becomes an error. -/
theorem block_content {R : Reader} {k : Walk.Kind} (hk : nests k = true) {a : Walk.Attrs} {es : List Any} {n : Nat} {x : Any}
    (h : refine R (n + 1) (.block k a es) = .done x) :
    ∃ zs out, reparse R es = some zs ∧ x = .block k a out ∧ out.length = zs.length ∧ ∀ p ∈ zs.zip out, refine R n p.1 = .done p.2 := by
  unfold refine at h
  dsimp only at h
  rw [if_pos hk] at h
  cases hp : reparse R es with
  | none => rw [hp] at h; cases h
  | some zs =>
    rw [hp] at h
    dsimp only at h
    have key : ∀ (zs out : List Any), refineAll (refine R n) zs = .done out → out.length = zs.length ∧ ∀ p ∈ zs.zip out, refine R n p.1 = .done p.2 := by
      intro zs
      induction zs with
      | nil => intro out h; cases h; exact ⟨rfl, fun _ h => nomatch h⟩
      | cons z zs ih =>
        intro out h
        unfold refineAll at h
        cases hz : refine R n z with
        | more => rw [hz] at h; cases h
        | error => rw [hz] at h; cases h
        | done y =>
          rw [hz] at h
          dsimp only at h
          cases hr : refineAll (refine R n) zs with
          | more => rw [hr] at h; cases h
          | error => rw [hr] at h; cases h
          | done ys =>
            rw [hr] at h
            cases h
            obtain ⟨h1, h2⟩ := ih ys hr
            refine ⟨congrArg (· + 1) h1, fun p hp => ?_⟩
            rcases List.mem_cons.mp hp with rfl | hp
            · exact hz
            · exact h2 p hp
    cases hr : refineAll (refine R n) zs with
    | more => rw [hr] at h; cases h
    | error => rw [hr] at h; cases h
    | done out =>
      rw [hr] at h
      cases h
      obtain ⟨h1, h2⟩ := key zs out hr
      exact ⟨zs, out, rfl, rfl, h1, h2⟩

/-- **C61**: an element that cannot be refined makes an error of its own fragment; a fragment is never lost. -/
theorem fragment_error {R : Reader} {n : Nat} {es : List Any} (h : refineAll (refine R n) es = .error) :
    refineFragment R n (.elements es) = .done .error := by
  unfold refineFragment; dsimp only; rw [h]

/-! ### The hypotheses can be met -/

/-- A parser for texts `=x=`, in which there is a block with the text `x`, and others, in which there is a paragraph. -/
def reader : Reader where
  parse t := match t with
    | '=' :: t => some (.slice [.block .example_ [] [.raw (t.dropLast)], .nil])
    | t => some (.slice [.paragraph [] [.raw t]])
  lists k := k == 1
  asciidoc f := f == 1

theorem reader_shrinks : Shrinks reader := by
  intro t es h e he
  have h : (match t with
    | '=' :: t => some (Any.slice [.block .example_ [] [.raw (t.dropLast)], .nil])
    | t => some (.slice [.paragraph [] [.raw t]])) = some (.slice es) := h
  split at h
  · injection h with h; injection h with h
    subst h
    rcases List.mem_cons.mp he with rfl | he
    · refine ⟨fun _ e he => ?_, ?_⟩
      · rcases List.mem_cons.mp he with rfl | he
        · exact ⟨_, rfl⟩
        · cases he
      · next u =>
        show 1 + (u.dropLast ++ []).length ≤ (u.length + 1)
        rw [List.append_nil, List.length_dropLast]; omega
    · rcases List.mem_cons.mp he with rfl | he
      · exact ⟨trivial, Nat.zero_le _⟩
      · cases he
  · injection h with h; injection h with h
    subst h
    rcases List.mem_cons.mp he with rfl | he
    · exact ⟨trivial, Nat.zero_le _⟩
    · cases he

example : refine reader 7 (.block .sidebar [] [.raw "==a=".toList]) ≠ .more :=
  ends reader_shrinks 7 _ (fun _ e he => by rcases List.mem_cons.mp he with rfl | he; exact ⟨_, rfl⟩; cases he) (by decide +kernel)

/-- Blocks within blocks. -/
example : refine reader 6 (.group 1 [] [.group 2 [] [], .continuation 0 (.block .sidebar [] [.raw "==a==".toList])]) =
    .done (.group 1 [] [.group 2 [] [], .continuation 0 (.block .sidebar [] [.block .example_ [] [.block .example_ [] [.paragraph [] [.raw ['a']]]]])]) := by
  rfl

/-- A table. -/
example : refine reader 1 (.table [] (some [.cell 0 [.raw ['h']]]) [[.cell 2 [.raw ['a']], .cell 0 []]] none) =
    .done (.table [] (some [.cell 0 [.paragraph [] [.raw ['h']]]]) [[.cell 2 [.paragraph [] [.raw ['a']]], .cell 0 [.paragraph [] []]]] none) :=
  table_cells (by intro cs h; cases h; intro c hc; rcases List.mem_cons.mp hc with rfl | hc; exact rfl; cases hc)
    (by
      intro r hr c hc
      rcases List.mem_cons.mp hr with rfl | hr
      · rcases List.mem_cons.mp hc with rfl | hc
        · exact rfl
        · rcases List.mem_cons.mp hc with rfl | hc
          · exact rfl
          · cases hc
      · cases hr) (by intro cs h; cases h) 0

/-- **Finding** (C61): the blocks in a cell of the format `a` are not refined: their content is not parsed, although it is in the same block elsewhere. -/
theorem finding_cells : refine reader 3 (.table [] none [[.cell 1 [.raw "=a=".toList]]] none) =
      .done (.table [] none [[.cell 1 [.block .example_ [] [.raw ['a']]]]] none) ∧
    refine reader 3 (.block .sidebar [] [.raw "=a=".toList]) = .done (.block .sidebar [] [.block .example_ [] [.paragraph [] [.raw ['a']]]]) := ⟨rfl, rfl⟩

end C61
end Verif
