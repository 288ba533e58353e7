import Verif.Spec.Markup
/-!
A scanner which accepts exactly the well-formed fragments of `Spec/Markup.lean`.
-/
namespace Verif.Html

instance : DecidablePred Letter := fun c => by unfold Letter; infer_instance
instance : DecidablePred NameChar := fun c => by unfold NameChar; infer_instance
instance (R) : DecidablePred (Blank R) := fun c => by unfold Blank; infer_instance
instance (R) : DecidablePred (ValueChar R) := fun c => by unfold ValueChar; infer_instance
instance (R n) : Decidable (Void R n) := by unfold Void; infer_instance

/-- Where the scanner is: in the text, or within a tag whose name is being read or is known. -/
inductive Mode where
  | text
  | lt
  | name (n : Text)
  | blank (n : Text)
  | attr (n : Text)
  | eq (n : Text)
  | val (n : Text)
  | aft (n : Text)
  | slash
  | clo0
  | clo (n : Text)
deriving DecidableEq, Repr

/-- The mode, and the names of the open elements. -/
structure St where
  mode : Mode
  stack : List Text
deriving DecidableEq, Repr

/-- The end `>` of the start tag of `n`. -/
def openTag (R : Rules) (n : Text) (stk : List Text) : St :=
  if Void R n then ⟨.text, stk⟩ else ⟨.text, n :: stk⟩

/-- The end of a start tag, or white space in it. -/
def tagEnd (R : Rules) (n : Text) (stk : List Text) (c : Char) : Option St :=
  if c = '>' then some (openTag R n stk)
  else if c = '/' then (if R.xml = true ∨ Void R n then some ⟨.slash, stk⟩ else none)
  else if Blank R c then some ⟨.blank n, stk⟩
  else none

/-- One character. -/
def step (R : Rules) : St → Char → Option St
  | ⟨.text, stk⟩, c => if c = '<' then some ⟨.lt, stk⟩ else if c = '>' then none else some ⟨.text, stk⟩
  | ⟨.lt, stk⟩, c =>
    if c = '/' then some ⟨.clo0, stk⟩ else if Letter c then some ⟨.name [c], stk⟩ else none
  | ⟨.name n, stk⟩, c => if NameChar c then some ⟨.name (n ++ [c]), stk⟩ else tagEnd R n stk c
  | ⟨.blank n, stk⟩, c => if Letter c then some ⟨.attr n, stk⟩ else tagEnd R n stk c
  | ⟨.attr n, stk⟩, c =>
    if NameChar c then some ⟨.attr n, stk⟩ else if c = '=' then some ⟨.eq n, stk⟩
    else if R.xml = true then none else tagEnd R n stk c
  | ⟨.eq n, stk⟩, c => if c = '"' then some ⟨.val n, stk⟩ else none
  | ⟨.val n, stk⟩, c =>
    if c = '"' then some ⟨.aft n, stk⟩ else if ValueChar R c then some ⟨.val n, stk⟩ else none
  | ⟨.aft n, stk⟩, c => tagEnd R n stk c
  | ⟨.slash, stk⟩, c => if c = '>' then some ⟨.text, stk⟩ else none
  | ⟨.clo0, stk⟩, c => if Letter c then some ⟨.clo [c], stk⟩ else none
  | ⟨.clo n, stk⟩, c =>
    if NameChar c then some ⟨.clo (n ++ [c]), stk⟩
    else if c = '>' then (match stk with | m :: rest => if m = n then some ⟨.text, rest⟩ else none | [] => none)
    else none

/-- A text. -/
def scan (R : Rules) : St → Text → Option St
  | s, [] => some s
  | s, c :: t => (step R s c).bind (fun s' => scan R s' t)

theorem scan_append (R) (s : St) (t u : Text) : scan R s (t ++ u) = (scan R s t).bind (fun s' => scan R s' u) := by
  induction t generalizing s with
  | nil => rfl
  | cons c t ih =>
    simp only [List.cons_append, scan]
    cases step R s c with
    | none => rfl
    | some s' => exact ih s'

/-- The characters which are no name characters. -/
theorem not_nameChar {c : Char} (h : c = '>' ∨ c = '/' ∨ c = ' ' ∨ c = '\t' ∨ c = '\n' ∨ c = '=' ∨ c = '"' ∨ c = '<') :
    ¬ NameChar c := by
  rcases h with rfl | rfl | rfl | rfl | rfl | rfl | rfl | rfl <;> decide

theorem not_letter {c : Char} (h : c = '>' ∨ c = '/' ∨ c = ' ' ∨ c = '\t' ∨ c = '\n' ∨ c = '=' ∨ c = '"' ∨ c = '<') :
    ¬ Letter c := fun hl => not_nameChar h (Or.inl hl)

theorem blank_ne {R c} (h : Blank R c) : c ≠ '>' ∧ c ≠ '/' ∧ ¬ NameChar c ∧ ¬ Letter c ∧ c ≠ '=' := by
  rcases h with rfl | rfl | ⟨rfl, _⟩ <;> decide

theorem step_blank_of {R} {n stk} {c : Char} (h : Blank R c) : tagEnd R n stk c = some ⟨.blank n, stk⟩ := by
  obtain ⟨h1, h2, _, _, _⟩ := blank_ne h
  unfold tagEnd; rw [if_neg h1, if_neg h2, if_pos h]

theorem scan_blanks {R n stk} : ∀ {b : Text}, (∀ c ∈ b, Blank R c) →
    scan R ⟨.blank n, stk⟩ b = some ⟨.blank n, stk⟩
  | [], _ => rfl
  | c :: b, h => by
    have hc := h c (List.mem_cons_self ..)
    have : step R ⟨.blank n, stk⟩ c = some ⟨.blank n, stk⟩ := by
      unfold step; dsimp only; rw [if_neg (blank_ne hc).2.2.2.1]; exact step_blank_of hc
    unfold scan; rw [this]; exact scan_blanks fun x hx => h x (List.mem_cons_of_mem _ hx)

theorem scan_attrName {R n stk} : ∀ {r : Text}, (∀ c ∈ r, NameChar c) →
    scan R ⟨.attr n, stk⟩ r = some ⟨.attr n, stk⟩
  | [], _ => rfl
  | c :: b, h => by
    have hc := h c (List.mem_cons_self ..)
    have : step R ⟨.attr n, stk⟩ c = some ⟨.attr n, stk⟩ := by unfold step; dsimp only; rw [if_pos hc]
    unfold scan; rw [this]; exact scan_attrName fun x hx => h x (List.mem_cons_of_mem _ hx)

theorem scan_name {R stk} : ∀ {r : Text} {n : Text}, (∀ c ∈ r, NameChar c) →
    scan R ⟨.name n, stk⟩ r = some ⟨.name (n ++ r), stk⟩
  | [], n, _ => by simp [scan]
  | c :: b, n, h => by
    have hc := h c (List.mem_cons_self ..)
    have : step R ⟨.name n, stk⟩ c = some ⟨.name (n ++ [c]), stk⟩ := by unfold step; dsimp only; rw [if_pos hc]
    unfold scan; rw [this]
    show scan R _ b = _
    rw [scan_name fun x hx => h x (List.mem_cons_of_mem _ hx)]; simp

theorem scan_clo {R stk} : ∀ {r : Text} {n : Text}, (∀ c ∈ r, NameChar c) →
    scan R ⟨.clo n, stk⟩ r = some ⟨.clo (n ++ r), stk⟩
  | [], n, _ => by simp [scan]
  | c :: b, n, h => by
    have hc := h c (List.mem_cons_self ..)
    have : step R ⟨.clo n, stk⟩ c = some ⟨.clo (n ++ [c]), stk⟩ := by unfold step; dsimp only; rw [if_pos hc]
    unfold scan; rw [this]
    show scan R _ b = _
    rw [scan_clo fun x hx => h x (List.mem_cons_of_mem _ hx)]; simp

theorem scan_val {R n stk} : ∀ {v : Text}, (∀ c ∈ v, ValueChar R c) →
    scan R ⟨.val n, stk⟩ v = some ⟨.val n, stk⟩
  | [], _ => rfl
  | c :: b, h => by
    have hc := h c (List.mem_cons_self ..)
    have : step R ⟨.val n, stk⟩ c = some ⟨.val n, stk⟩ := by unfold step; dsimp only; rw [if_neg hc.1, if_pos hc]
    unfold scan; rw [this]; exact scan_val fun x hx => h x (List.mem_cons_of_mem _ hx)

/-- The modes in which a tag may end, or go on with white space. -/
def Endable (R : Rules) (n : Text) (m : Mode) : Prop :=
  m = .name n ∨ m = .blank n ∨ m = .aft n ∨ (m = .attr n ∧ R.xml = false)

theorem Endable.step {R n m stk c} (h : Endable R n m) (hc : c = '>' ∨ c = '/' ∨ Blank R c) :
    step R ⟨m, stk⟩ c = tagEnd R n stk c := by
  have hn : ¬ NameChar c := by
    rcases hc with rfl | rfl | hc
    · decide
    · decide
    · exact (blank_ne hc).2.2.1
  have hl : ¬ Letter c := fun h => hn (Or.inl h)
  have he : c ≠ '=' := by
    rcases hc with rfl | rfl | hc
    · decide
    · decide
    · exact (blank_ne hc).2.2.2.2
  rcases h with rfl | rfl | rfl | ⟨rfl, hx⟩
  · unfold Html.step; dsimp only; rw [if_neg hn]
  · unfold Html.step; dsimp only; rw [if_neg hl]
  · rfl
  · unfold Html.step; dsimp only; rw [if_neg hn, if_neg he, hx]; simp

theorem Endable.blanks {R n m stk} {b : Text} (h : Endable R n m) (hb : b ≠ []) (hc : ∀ c ∈ b, Blank R c) :
    scan R ⟨m, stk⟩ b = some ⟨.blank n, stk⟩ := by
  cases b with
  | nil => exact absurd rfl hb
  | cons c b =>
    have h1 := hc c (List.mem_cons_self ..)
    unfold scan
    rw [h.step (Or.inr (Or.inr h1)), step_blank_of h1]
    exact scan_blanks fun x hx => hc x (List.mem_cons_of_mem _ hx)

/-- The attributes of a start tag lead to a mode in which the tag may end. -/
theorem scan_attrs {R n stk} {a : Text} (h : Attrs R a) : ∀ {m : Mode}, Endable R n m →
    ∃ m', Endable R n m' ∧ scan R ⟨m, stk⟩ a = some ⟨m', stk⟩ := by
  induction h with
  | @done b hb =>
    intro m hm
    by_cases h0 : b = []
    · subst h0; exact ⟨m, hm, rfl⟩
    · exact ⟨_, Or.inr (Or.inl rfl), hm.blanks h0 hb⟩
  | @flag b k rest hx h0 hb hk _ ih =>
    intro m hm
    obtain ⟨c, r, rfl, hc, hr⟩ := hk
    obtain ⟨m', hm', e⟩ := @ih (.attr n) (Or.inr (Or.inr (Or.inr ⟨rfl, hx⟩)))
    refine ⟨m', hm', ?_⟩
    rw [scan_append, scan_append, hm.blanks h0 hb]
    have e1 : scan R ⟨.blank n, stk⟩ (c :: r) = some ⟨.attr n, stk⟩ := by
      unfold scan
      have : step R ⟨.blank n, stk⟩ c = some ⟨.attr n, stk⟩ := by unfold step; dsimp only; rw [if_pos hc]
      rw [this]; exact scan_attrName hr
    simp only [Option.bind_some, e1]; exact e
  | @value b k v rest h0 hb hk hv _ ih =>
    intro m hm
    obtain ⟨c, r, rfl, hc, hr⟩ := hk
    obtain ⟨m', hm', e⟩ := @ih (.aft n) (Or.inr (Or.inr (Or.inl rfl)))
    refine ⟨m', hm', ?_⟩
    rw [scan_append, scan_append, scan_append, hm.blanks h0 hb]
    have e1 : scan R ⟨.blank n, stk⟩ (c :: r) = some ⟨.attr n, stk⟩ := by
      unfold scan
      have : step R ⟨.blank n, stk⟩ c = some ⟨.attr n, stk⟩ := by unfold step; dsimp only; rw [if_pos hc]
      rw [this]; exact scan_attrName hr
    have e2 : scan R ⟨.attr n, stk⟩ ('=' :: '"' :: v ++ ['"']) = some ⟨.aft n, stk⟩ := by
      have a1 : step R ⟨.attr n, stk⟩ '=' = some ⟨.eq n, stk⟩ := by
        unfold step; dsimp only; rw [if_neg (not_nameChar (by decide)), if_pos rfl]
      have a2 : step R ⟨.eq n, stk⟩ '"' = some ⟨.val n, stk⟩ := rfl
      have a3 : step R ⟨.val n, stk⟩ '"' = some ⟨.aft n, stk⟩ := rfl
      simp only [List.cons_append, scan, a1, a2, Option.bind_some, scan_append, scan_val hv, a3]
    simp only [Option.bind_some, e1, e2]; exact e

theorem scan_startName {R n stk} (h : Name n) : scan R ⟨.lt, stk⟩ n = some ⟨.name n, stk⟩ := by
  obtain ⟨c, r, rfl, hc, hr⟩ := h
  have : step R ⟨.lt, stk⟩ c = some ⟨.name [c], stk⟩ := by
    have hs : c ≠ '/' := by rintro rfl; exact absurd hc (by decide)
    unfold step; dsimp only; rw [if_neg hs, if_pos hc]
  unfold scan; rw [this]; exact scan_name hr

/-- A start tag. -/
theorem scan_start {R n a stk} (h : Name n) (ha : Attrs R a) :
    scan R ⟨.text, stk⟩ ('<' :: n ++ a ++ ['>']) = some (openTag R n stk) := by
  obtain ⟨m', hm', e⟩ := scan_attrs (R := R) (n := n) (stk := stk) ha (Or.inl rfl)
  have h1 : step R ⟨.text, stk⟩ '<' = some ⟨.lt, stk⟩ := rfl
  have h2 : step R ⟨m', stk⟩ '>' = some (openTag R n stk) := by rw [hm'.step (Or.inl rfl)]; rfl
  simp only [List.cons_append, scan, h1, Option.bind_some, scan_append, scan_startName h, e, h2]

theorem scan_self {R n a stk} (h : Name n) (hx : R.xml = true ∨ Void R n) (ha : Attrs R a) :
    scan R ⟨.text, stk⟩ ('<' :: n ++ a ++ ['/', '>']) = some ⟨.text, stk⟩ := by
  obtain ⟨m', hm', e⟩ := scan_attrs (R := R) (n := n) (stk := stk) ha (Or.inl rfl)
  have h1 : step R ⟨.text, stk⟩ '<' = some ⟨.lt, stk⟩ := rfl
  have h2 : step R ⟨m', stk⟩ '/' = some ⟨.slash, stk⟩ := by
    rw [hm'.step (Or.inr (Or.inl rfl))]; unfold tagEnd; rw [if_neg (by decide), if_pos rfl, if_pos hx]
  have h3 : step R ⟨.slash, stk⟩ '>' = some ⟨.text, stk⟩ := rfl
  simp only [List.cons_append, scan, h1, Option.bind_some, scan_append, scan_startName h, e, h2, h3]

theorem scan_close {R n stk} (h : Name n) :
    scan R ⟨.text, n :: stk⟩ ('<' :: '/' :: n ++ ['>']) = some ⟨.text, stk⟩ := by
  obtain ⟨c, r, rfl, hc, hr⟩ := h
  have h1 : step R ⟨.text, (c :: r) :: stk⟩ '<' = some ⟨.lt, (c :: r) :: stk⟩ := rfl
  have h2 : step R ⟨.lt, (c :: r) :: stk⟩ '/' = some ⟨.clo0, (c :: r) :: stk⟩ := rfl
  have h3 : step R ⟨.clo0, (c :: r) :: stk⟩ c = some ⟨.clo [c], (c :: r) :: stk⟩ := by
    unfold step; dsimp only; rw [if_pos hc]
  have h4 : step R ⟨.clo (c :: r), (c :: r) :: stk⟩ '>' = some ⟨.text, stk⟩ := by
    unfold step; dsimp only; rw [if_neg (not_nameChar (by decide)), if_pos rfl]; simp
  simp only [List.cons_append, scan, h1, h2, h3, Option.bind_some, scan_append, scan_clo hr]
  show (step R ⟨.clo (c :: r), (c :: r) :: stk⟩ '>').bind (fun s' => scan R s' []) = _
  rw [h4]; rfl

/-- A well-formed fragment is accepted, whatever elements are open, and leaves them open. -/
theorem Markup.scan {R t} (h : Markup R t) : ∀ stk, Html.scan R ⟨.text, stk⟩ t = some ⟨.text, stk⟩ := by
  induction h with
  | empty => intro stk; rfl
  | @char c rest h1 h2 _ ih =>
    intro stk
    have : step R ⟨.text, stk⟩ c = some ⟨.text, stk⟩ := by unfold step; dsimp only; rw [if_neg h1, if_neg h2]
    unfold Html.scan; rw [this]; exact ih stk
  | @element n a inner rest hn hv ha _ _ ih1 ih2 =>
    intro stk
    rw [scan_append, scan_append, scan_append, scan_start hn ha]
    have : openTag R n stk = ⟨.text, n :: stk⟩ := if_neg hv
    simp only [Option.bind_some, this, ih1, scan_close hn, ih2]
  | @void n a rest hn hv ha _ ih =>
    intro stk
    rw [scan_append, scan_start hn ha]
    have : openTag R n stk = ⟨.text, stk⟩ := if_pos hv
    simp only [Option.bind_some, this, ih]
  | @selfClosed n a rest hn hv ha _ ih =>
    intro stk
    rw [scan_append, scan_self hn hv ha]
    simp only [Option.bind_some, ih]

/-! ### The converse -/

/-- `a` completes the attributes of a start tag, from the given mode. -/
def Completes (R : Rules) : Mode → Text → Prop
  | .name _, a => Attrs R a
  | .blank _, a => ∀ b, b ≠ [] → (∀ c ∈ b, Blank R c) → Attrs R (b ++ a)
  | .attr _, a => ∀ b p, b ≠ [] → (∀ c ∈ b, Blank R c) → Name p → Attrs R (b ++ p ++ a)
  | .eq _, a => ∀ b p, b ≠ [] → (∀ c ∈ b, Blank R c) → Name p → Attrs R (b ++ p ++ ('=' :: a))
  | .val _, a => ∀ b p v, b ≠ [] → (∀ c ∈ b, Blank R c) → Name p → (∀ c ∈ v, ValueChar R c) →
      Attrs R (b ++ p ++ ('=' :: '"' :: v ++ a))
  | .aft _, a => Attrs R a
  | _, _ => False

/-- The name of the element of a mode. -/
def nameOf : Mode → Text
  | .name n | .blank n | .attr n | .eq n | .val n | .aft n => n
  | _ => []

theorem Name.snoc {n : Text} {c} (h : Name n) (hc : NameChar c) : Name (n ++ [c]) := by
  obtain ⟨d, r, rfl, hd, hr⟩ := h
  refine ⟨d, r ++ [c], rfl, hd, fun x hx => ?_⟩
  rcases List.mem_append.mp hx with h | h
  · exact hr x h
  · rw [List.mem_singleton.mp h]; exact hc

/-- The end of a tag, or a blank: what is left of the tag. -/
def Tag (R : Rules) (m : Mode) (stk : List Text) (n' a : Text) (t : Text) (fin : St) : Prop :=
  Name n' ∧
  ((∃ t', t = a ++ '>' :: t' ∧ scan R (openTag R n' stk) t' = some fin) ∨
   (∃ t', t = a ++ '/' :: '>' :: t' ∧ (R.xml = true ∨ Void R n') ∧ scan R ⟨.text, stk⟩ t' = some fin))

theorem tag_ends {R : Rules} : ∀ (t : Text) (m : Mode) (stk : List Text) (fin : St), fin.mode = .text →
    Name (nameOf m) → scan R ⟨m, stk⟩ t = some fin →
    (∃ k a, (match m with
              | .name n => ∃ p, t = p ++ k ∧ (∀ c ∈ p, NameChar c) ∧ Attrs R a ∧ Tag R m stk (n ++ p) a k fin
              | _ => k = t ∧ Completes R m a ∧ Tag R m stk (nameOf m) a k fin)) := by
  intro t
  induction t with
  | nil =>
    intro m stk fin hf hn h
    simp only [scan, Option.some.injEq] at h
    subst h
    cases hf
    obtain ⟨c, r, e, _⟩ := hn; cases e
  | cons c t ih =>
    intro m stk fin hf hn h
    -- what happens after the end of the name, of a value or of a blank
    have fin_case : ∀ n, Name n → (tagEnd R n stk c).bind (fun s' => scan R s' t) = some fin →
        (c = '>' ∧ scan R (openTag R n stk) t = some fin) ∨
        (∃ t', c = '/' ∧ t = '>' :: t' ∧ (R.xml = true ∨ Void R n) ∧ scan R ⟨.text, stk⟩ t' = some fin) ∨
        (Blank R c ∧ ∃ a, (∀ b, b ≠ [] → (∀ c ∈ b, Blank R c) → Attrs R (b ++ a)) ∧
          Tag R (.blank n) stk n a t fin) := by
      intro n hn h
      unfold tagEnd at h
      by_cases h1 : c = '>'
      · rw [if_pos h1] at h; exact Or.inl ⟨h1, h⟩
      · rw [if_neg h1] at h
        by_cases h2 : c = '/'
        · rw [if_pos h2] at h
          by_cases h3 : R.xml = true ∨ Void R n
          · rw [if_pos h3] at h
            cases t with
            | nil => cases h; cases hf
            | cons d t' =>
              by_cases h4 : d = '>'
              · subst h4
                exact Or.inr (Or.inl ⟨t', h2, rfl, h3, h⟩)
              · simp [scan, step, h4] at h
          · rw [if_neg h3] at h; cases h
        · rw [if_neg h2] at h
          by_cases h3 : Blank R c
          · rw [if_pos h3] at h
            obtain ⟨k, a, rfl, hc, ht⟩ := ih (.blank n) stk fin hf hn h
            exact Or.inr (Or.inr ⟨h3, a, hc, ht⟩)
          · rw [if_neg h3] at h; cases h
    -- the same, as the end of the tag
    have fin_tag : ∀ m n, Name n → (tagEnd R n stk c).bind (fun s' => scan R s' t) = some fin →
        ∃ a, Attrs R a ∧ Tag R m stk n a (c :: t) fin := by
      intro m n hn h
      rcases fin_case n hn h with ⟨rfl, h1⟩ | ⟨t', rfl, rfl, h1, h2⟩ | ⟨hb, a, ha, _, ht⟩
      · exact ⟨[], Attrs.done (by simp), hn, Or.inl ⟨t, rfl, h1⟩⟩
      · exact ⟨[], Attrs.done (by simp), hn, Or.inr ⟨t', rfl, h1, h2⟩⟩
      · refine ⟨c :: a, ha [c] (by simp) (by simpa using hb), hn, ?_⟩
        rcases ht with ⟨t', e, ht⟩ | ⟨t', e, ht⟩
        · exact Or.inl ⟨t', by rw [e]; rfl, ht⟩
        · exact Or.inr ⟨t', by rw [e]; rfl, ht⟩
    have tag_cons : ∀ {m m' n a}, Tag R m stk n a t fin → Tag R m' stk n (c :: a) (c :: t) fin := by
      rintro m m' n a ⟨h0, ht⟩
      refine ⟨h0, ?_⟩
      rcases ht with ⟨t', e, ht⟩ | ⟨t', e, ht⟩
      · exact Or.inl ⟨t', by rw [e]; rfl, ht⟩
      · exact Or.inr ⟨t', by rw [e]; rfl, ht⟩
    unfold scan at h
    cases m with
    | name n =>
      by_cases hc : NameChar c
      · have e : step R ⟨.name n, stk⟩ c = some ⟨.name (n ++ [c]), stk⟩ := by unfold step; dsimp only; rw [if_pos hc]
        rw [e] at h
        obtain ⟨k, a, p, e1, hp, ha, ht⟩ := ih (.name (n ++ [c])) stk fin hf (Name.snoc hn hc) h
        refine ⟨k, a, c :: p, by rw [e1]; rfl, ?_, ha, ?_⟩
        · intro x hx
          rcases List.mem_cons.mp hx with rfl | hx
          · exact hc
          · exact hp x hx
        · have ht' : Tag R (.name n) stk (n ++ [c] ++ p) a k fin := ht
          simpa using ht'
      · have e : step R ⟨.name n, stk⟩ c = tagEnd R n stk c := by unfold step; dsimp only; rw [if_neg hc]
        rw [e] at h
        obtain ⟨a, ha, ht⟩ := fin_tag (.name n) n hn h
        exact ⟨c :: t, a, [], rfl, by simp, ha, by simpa using ht⟩
    | blank n =>
      by_cases hc : Letter c
      · have e : step R ⟨.blank n, stk⟩ c = some ⟨.attr n, stk⟩ := by unfold step; dsimp only; rw [if_pos hc]
        rw [e] at h
        obtain ⟨k, a, rfl, ha, ht⟩ := ih (.attr n) stk fin hf hn h
        refine ⟨_, c :: a, rfl, fun b hb hbb => ?_, tag_cons ht⟩
        have := ha b [c] hb hbb ⟨c, [], rfl, hc, by simp⟩
        simpa using this
      · have e : step R ⟨.blank n, stk⟩ c = tagEnd R n stk c := by unfold step; dsimp only; rw [if_neg hc]
        rw [e] at h
        rcases fin_case n hn h with ⟨rfl, h1⟩ | ⟨t', rfl, rfl, h1, h2⟩ | ⟨hb, a, ha, ht⟩
        · exact ⟨_, [], rfl, fun b hb hbb => by rw [List.append_nil]; exact Attrs.done hbb, hn,
            Or.inl ⟨t, rfl, h1⟩⟩
        · exact ⟨_, [], rfl, fun b hb hbb => by rw [List.append_nil]; exact Attrs.done hbb, hn,
            Or.inr ⟨t', rfl, h1, h2⟩⟩
        · refine ⟨_, c :: a, rfl, fun b hb' hbb => ?_, tag_cons ht⟩
          have := ha (b ++ [c]) (by simp) (by
            intro x hx
            rcases List.mem_append.mp hx with h | h
            · exact hbb x h
            · rw [List.mem_singleton.mp h]; exact hb)
          simpa using this
    | attr n =>
      by_cases hc : NameChar c
      · have e : step R ⟨.attr n, stk⟩ c = some ⟨.attr n, stk⟩ := by unfold step; dsimp only; rw [if_pos hc]
        rw [e] at h
        obtain ⟨k, a, rfl, ha, ht⟩ := ih (.attr n) stk fin hf hn h
        refine ⟨_, c :: a, rfl, fun b p hb hbb hp => ?_, tag_cons ht⟩
        have := ha b (p ++ [c]) hb hbb (Name.snoc hp hc)
        simpa using this
      · by_cases he : c = '='
        · subst he
          have e : step R ⟨.attr n, stk⟩ '=' = some ⟨.eq n, stk⟩ := by unfold step; dsimp only; rw [if_neg hc, if_pos rfl]
          rw [e] at h
          obtain ⟨k, a, rfl, ha, ht⟩ := ih (.eq n) stk fin hf hn h
          exact ⟨_, '=' :: a, rfl, fun b p hb hbb hp => ha b p hb hbb hp, tag_cons ht⟩
        · by_cases hx : R.xml = true
          · have e : step R ⟨.attr n, stk⟩ c = none := by
              unfold step; dsimp only; rw [if_neg hc, if_neg he, if_pos hx]
            rw [e] at h; cases h
          · have e : step R ⟨.attr n, stk⟩ c = tagEnd R n stk c := by
              unfold step; dsimp only; rw [if_neg hc, if_neg he, if_neg hx]
            rw [e] at h
            have hx' : R.xml = false := by simpa using hx
            obtain ⟨a, ha, ht⟩ := fin_tag (.attr n) n hn h
            exact ⟨_, a, rfl, fun b p hb hbb hp => Attrs.flag hx' hb hbb hp ha, ht⟩
    | eq n =>
      by_cases hc : c = '"'
      · subst hc
        have e : step R ⟨.eq n, stk⟩ '"' = some ⟨.val n, stk⟩ := rfl
        rw [e] at h
        obtain ⟨k, a, rfl, ha, ht⟩ := ih (.val n) stk fin hf hn h
        refine ⟨_, '"' :: a, rfl, fun b p hb hbb hp => ?_, tag_cons ht⟩
        have := ha b p [] hb hbb hp (by simp)
        simpa using this
      · have e : step R ⟨.eq n, stk⟩ c = none := by unfold step; dsimp only; rw [if_neg hc]
        rw [e] at h; cases h
    | val n =>
      by_cases hc : c = '"'
      · subst hc
        have e : step R ⟨.val n, stk⟩ '"' = some ⟨.aft n, stk⟩ := rfl
        rw [e] at h
        obtain ⟨k, a, rfl, ha, ht⟩ := ih (.aft n) stk fin hf hn h
        refine ⟨_, '"' :: a, rfl, fun b p v hb hbb hp hv => ?_, tag_cons ht⟩
        have := Attrs.value hb hbb hp hv ha
        simpa using this
      · by_cases hv : ValueChar R c
        · have e : step R ⟨.val n, stk⟩ c = some ⟨.val n, stk⟩ := by unfold step; dsimp only; rw [if_neg hc, if_pos hv]
          rw [e] at h
          obtain ⟨k, a, rfl, ha, ht⟩ := ih (.val n) stk fin hf hn h
          refine ⟨_, c :: a, rfl, fun b p v hb hbb hp hvv => ?_, tag_cons ht⟩
          have := ha b p (v ++ [c]) hb hbb hp (by
            intro x hx
            rcases List.mem_append.mp hx with h | h
            · exact hvv x h
            · rw [List.mem_singleton.mp h]; exact hv)
          simpa using this
        · have e : step R ⟨.val n, stk⟩ c = none := by unfold step; dsimp only; rw [if_neg hc, if_neg hv]
          rw [e] at h; cases h
    | aft n =>
      obtain ⟨a, ha, ht⟩ := fin_tag (.aft n) n hn h
      exact ⟨_, a, rfl, ha, ht⟩
    | text => obtain ⟨c, r, e, _⟩ := hn; cases e
    | lt => obtain ⟨c, r, e, _⟩ := hn; cases e
    | slash => obtain ⟨c, r, e, _⟩ := hn; cases e
    | clo0 => obtain ⟨c, r, e, _⟩ := hn; cases e
    | clo n => obtain ⟨c, r, e, _⟩ := hn; cases e

/-- A start tag, from its first character. -/
theorem start_ends {R : Rules} {c : Char} {t : Text} {stk : List Text} {fin : St} (hf : fin.mode = .text)
    (hc : Letter c) (h : scan R ⟨.name [c], stk⟩ t = some fin) :
    ∃ n a, Name n ∧ Attrs R a ∧
      ((∃ t', c :: t = n ++ a ++ ['>'] ++ t' ∧ scan R (openTag R n stk) t' = some fin) ∨
       (∃ t', c :: t = n ++ a ++ ['/', '>'] ++ t' ∧ (R.xml = true ∨ Void R n) ∧
          scan R ⟨.text, stk⟩ t' = some fin)) := by
  obtain ⟨k, a, p, e, hp, ha, hn, ht⟩ := tag_ends t (.name [c]) stk fin hf ⟨c, [], rfl, hc, by simp⟩ h
  refine ⟨[c] ++ p, a, hn, ha, ?_⟩
  rcases ht with ⟨t', e', ht⟩ | ⟨t', e', hx, ht⟩
  · exact Or.inl ⟨t', by rw [e, e']; simp, ht⟩
  · exact Or.inr ⟨t', by rw [e, e']; simp, hx, ht⟩

/-- An end tag. -/
theorem close_ends {R : Rules} {stk : List Text} {fin : St} (hf : fin.mode = .text) : ∀ {t : Text} {n : Text},
    Name n → scan R ⟨.clo n, stk⟩ t = some fin →
    ∃ m rest p t', stk = m :: rest ∧ m = n ++ p ∧ Name m ∧ t = p ++ '>' :: t' ∧
      scan R ⟨.text, rest⟩ t' = some fin
  | [], n, hn, h => by cases h; cases hf
  | c :: t, n, hn, h => by
    unfold scan at h
    by_cases hc : NameChar c
    · have e : step R ⟨.clo n, stk⟩ c = some ⟨.clo (n ++ [c]), stk⟩ := by unfold step; dsimp only; rw [if_pos hc]
      rw [e] at h
      obtain ⟨m, rest, p, t', e1, e2, h3, e3, h4⟩ := close_ends hf (Name.snoc hn hc) h
      exact ⟨m, rest, c :: p, t', e1, by rw [e2]; simp, h3, by rw [e3]; rfl, h4⟩
    · by_cases h1 : c = '>'
      · subst h1
        cases stk with
        | nil => unfold step at h; dsimp only at h; rw [if_neg hc, if_pos rfl] at h; cases h
        | cons m rest =>
          by_cases hm : m = n
          · have e : step R ⟨.clo n, m :: rest⟩ '>' = some ⟨.text, rest⟩ := by
              unfold step; dsimp only; rw [if_neg hc, if_pos rfl]; simp [hm]
            rw [e] at h
            exact ⟨m, rest, [], t, rfl, by simp [hm], hm ▸ hn, rfl, h⟩
          · have e : step R ⟨.clo n, m :: rest⟩ '>' = none := by
              unfold step; dsimp only; rw [if_neg hc, if_pos rfl]; simp [hm]
            rw [e] at h; cases h
      · have e : step R ⟨.clo n, stk⟩ c = none := by unfold step; dsimp only; rw [if_neg hc, if_neg h1]
        rw [e] at h; cases h

/-- What is accepted is a well-formed fragment up to the end tag of the innermost open element. -/
theorem markup_of_scan_aux {R : Rules} : ∀ (k : Nat) (t : Text), t.length ≤ k → ∀ stk : List Text,
    scan R ⟨.text, stk⟩ t = some ⟨.text, []⟩ →
    match stk with
    | [] => Markup R t
    | n :: rest => ∃ inner t', t = inner ++ ('<' :: '/' :: n ++ ['>']) ++ t' ∧ Markup R inner ∧ Name n ∧
        scan R ⟨.text, rest⟩ t' = some ⟨.text, []⟩ := by
  intro k
  induction k with
  | zero =>
    intro t hk stk h
    have : t = [] := List.length_eq_zero_iff.mp (Nat.le_zero.mp hk)
    subst this
    cases h; exact Markup.empty
  | succ k ih =>
    intro t hk stk h
    cases t with
    | nil => cases h; exact Markup.empty
    | cons c t =>
      have hk' : t.length ≤ k := Nat.le_of_succ_le_succ hk
      unfold scan at h
      by_cases h1 : c = '<'
      · subst h1
        have e : step R ⟨.text, stk⟩ '<' = some ⟨.lt, stk⟩ := rfl
        rw [e] at h
        cases t with
        | nil => cases h
        | cons d t =>
          replace h : (step R ⟨.lt, stk⟩ d).bind (fun s' => scan R s' t) = some ⟨.text, []⟩ := h
          by_cases hd : d = '/'
          · subst hd
            have e : step R ⟨.lt, stk⟩ '/' = some ⟨.clo0, stk⟩ := rfl
            rw [e] at h
            cases t with
            | nil => cases h
            | cons x t =>
              replace h : (step R ⟨.clo0, stk⟩ x).bind (fun s' => scan R s' t) = some ⟨.text, []⟩ := h
              by_cases hx : Letter x
              · have e : step R ⟨.clo0, stk⟩ x = some ⟨.clo [x], stk⟩ := by unfold step; dsimp only; rw [if_pos hx]
                rw [e] at h
                obtain ⟨m, rest, p, t', rfl, rfl, h3, rfl, h4⟩ :=
                  close_ends (fin := ⟨.text, []⟩) rfl ⟨x, [], rfl, hx, by simp⟩ h
                exact ⟨[], t', by simp, Markup.empty, h3, h4⟩
              · have e : step R ⟨.clo0, stk⟩ x = none := by unfold step; dsimp only; rw [if_neg hx]
                rw [e] at h; cases h
          · by_cases hl : Letter d
            · have e : step R ⟨.lt, stk⟩ d = some ⟨.name [d], stk⟩ := by
                unfold step; dsimp only; rw [if_neg hd, if_pos hl]
              rw [e] at h
              obtain ⟨n, a, hn, ha, ht⟩ := start_ends (fin := ⟨.text, []⟩) rfl hl h
              rcases ht with ⟨t', e', ht⟩ | ⟨t', e', hx, ht⟩
              · have hlen : t'.length ≤ k := by
                  have := congrArg List.length e'
                  simp at this hk'; omega
                by_cases hv : Void R n
                · have : openTag R n stk = ⟨.text, stk⟩ := if_pos hv
                  rw [this] at ht
                  have := ih t' hlen stk ht
                  cases stk with
                  | nil =>
                    have h9 := Markup.void hn hv ha this
                    rw [e']; simpa using h9
                  | cons m rest =>
                    obtain ⟨inner, t2, rfl, hi, hm, h2⟩ := this
                    refine ⟨('<' :: n ++ a ++ ['>']) ++ inner, t2, by rw [e']; simp, Markup.void hn hv ha hi, hm, h2⟩
                · have : openTag R n stk = ⟨.text, n :: stk⟩ := if_neg hv
                  rw [this] at ht
                  obtain ⟨inner, t2, rfl, hi, _, h2⟩ := ih t' hlen (n :: stk) ht
                  have := ih t2 (by simp at hlen; omega) stk h2
                  cases stk with
                  | nil =>
                    have h9 := Markup.element hn hv ha hi this
                    rw [e']; simpa using h9
                  | cons m rest =>
                    obtain ⟨inner2, t3, rfl, hi2, hm, h3⟩ := this
                    refine ⟨('<' :: n ++ a ++ ['>']) ++ inner ++ ('<' :: '/' :: n ++ ['>']) ++ inner2, t3,
                      by rw [e']; simp, Markup.element hn hv ha hi hi2, hm, h3⟩
              · have hlen : t'.length ≤ k := by
                  have := congrArg List.length e'
                  simp at this hk'; omega
                have := ih t' hlen stk ht
                cases stk with
                | nil =>
                  have h9 := Markup.selfClosed hn hx ha this
                  rw [e']; simpa using h9
                | cons m rest =>
                  obtain ⟨inner, t2, rfl, hi, hm, h2⟩ := this
                  refine ⟨('<' :: n ++ a ++ ['/', '>']) ++ inner, t2, by rw [e']; simp,
                    Markup.selfClosed hn hx ha hi, hm, h2⟩
            · have e : step R ⟨.lt, stk⟩ d = none := by unfold step; dsimp only; rw [if_neg hd, if_neg hl]
              rw [e] at h; cases h
      · by_cases h2 : c = '>'
        · have e : step R ⟨.text, stk⟩ c = none := by unfold step; dsimp only; rw [if_neg h1, if_pos h2]
          rw [e] at h; cases h
        · have e : step R ⟨.text, stk⟩ c = some ⟨.text, stk⟩ := by unfold step; dsimp only; rw [if_neg h1, if_neg h2]
          rw [e] at h
          have := ih t hk' stk h
          cases stk with
          | nil => exact Markup.char h1 h2 this
          | cons m rest =>
            obtain ⟨inner, t2, rfl, hi, hm, h3⟩ := this
            exact ⟨c :: inner, t2, rfl, Markup.char h1 h2 hi, hm, h3⟩

/-- The scanner accepts exactly the well-formed fragments. -/
theorem markup_iff {R : Rules} {t : Text} : Markup R t ↔ scan R ⟨.text, []⟩ t = some ⟨.text, []⟩ :=
  ⟨fun h => h.scan [], fun h => markup_of_scan_aux t.length t (Nat.le_refl _) [] h⟩

instance (R : Rules) (t : Text) : Decidable (Markup R t) := decidable_of_iff _ markup_iff.symm

end Verif.Html
