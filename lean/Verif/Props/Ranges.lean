import Verif.Props.Include
/-! C39: the selectors of `lines=` and `tags=` are parsed as written. -/
namespace Verif.C39

/-! ### Specification: the documented syntax, as a relation between values and texts -/

/-- A decimal number: one or more digits. -/
def NatText (n : Nat) (t : Text) : Prop := t ≠ [] ∧ (∀ c ∈ t, '0' ≤ c ∧ c ≤ '9') ∧ digitsVal t = n

/-- An integer that fits Go's `int`: digits with an optional minus sign. -/
def IntText (i : Int) (t : Text) : Prop :=
  -9223372036854775808 ≤ i ∧ i ≤ 9223372036854775807 ∧
  ((∃ n : Nat, i = n ∧ NatText n t) ∨ (∃ n : Nat, ∃ r, i = -(n : Int) ∧ t = '-' :: r ∧ NatText n r))

/-- A line range: `12` or `12..14`. -/
def RangeText (r : LineRange) (t : Text) : Prop :=
  (r.start = r.stop ∧ IntText r.start t) ∨
  (∃ a b, IntText r.start a ∧ IntText r.stop b ∧ t = a ++ ['.', '.'] ++ b)

/-- A tag selector: a name or `*` or `**`, with `!` in front for an exclusion. -/
def TagText (alnum : Char → Bool) (r : TagRange) (t : Text) : Prop :=
  (r.name = ['*'] ∨ r.name = ['*', '*'] ∨ (r.name ≠ [] ∧ ∀ c ∈ r.name, alnum c = true)) ∧
  t = (if r.included then r.name else '!' :: r.name)

/-- Items separated by `,` or `;`. -/
inductive ListText {α : Type} (item : α → Text → Prop) : List α → Text → Prop
  | one {a t} : item a t → ListText item [a] t
  | cons {a t c as ts} : item a t → c = ',' ∨ c = ';' → ListText item as ts → ListText item (a :: as) (t ++ c :: ts)

/-- What is needed of the Unicode class `[\pL\pN]`: none of the punctuation of the syntax is in it. -/
def ClassOK (alnum : Char → Bool) : Prop :=
  alnum ',' = false ∧ alnum ';' = false ∧ alnum '!' = false ∧ alnum '*' = false ∧ alnum '[' = false

/-! ### Proofs -/

theorem isDigit_iff (c : Char) : isDigit c = true ↔ ('0' ≤ c ∧ c ≤ '9') := by
  unfold isDigit; simp

theorem inInt64_iff (i : Int) : inInt64 i = true ↔ (-9223372036854775808 ≤ i ∧ i ≤ 9223372036854775807) := by
  unfold inInt64; simp

/-- The rest of the input does not continue a token. -/
def Stops (p : Char → Bool) (rest : Text) : Prop := ∀ x ∈ rest.head?, p x = false

theorem pInteger_complete (i : Int) (t rest : Text) (h : IntText i t) (hr : Stops isDigit rest) :
    pInteger (t ++ rest) = some (i, rest) := by
  obtain ⟨h1, h2, h3⟩ := h
  rcases h3 with ⟨n, rfl, ht, hd, hv⟩ | ⟨n, r, rfl, rfl, ht, hd, hv⟩
  · have hd' : ∀ c ∈ t, isDigit c = true := fun c hc => (isDigit_iff c).2 (hd c hc)
    have := takeWhile_append_stop isDigit t rest hd' hr
    unfold pInteger
    split
    · rename_i r e
      cases t with
      | nil => exact absurd rfl ht
      | cons c cs =>
        injection e with e _
        have := hd' c List.mem_cons_self
        rw [e] at this; exact absurd this (by decide)
    · dsimp only
      rw [this.1, if_neg ht, if_pos ((inInt64_iff _).2 (by rw [hv]; exact ⟨h1, h2⟩)), this.2, hv]
  · have hd' : ∀ c ∈ r, isDigit c = true := fun c hc => (isDigit_iff c).2 (hd c hc)
    have := takeWhile_append_stop isDigit r rest hd' hr
    have e : ∀ r, pInteger ('-' :: r) = if r.takeWhile isDigit = [] then none
        else if inInt64 (-(digitsVal (r.takeWhile isDigit) : Int)) then
          some (-(digitsVal (r.takeWhile isDigit) : Int), r.dropWhile isDigit) else none := fun _ => rfl
    rw [List.cons_append, e]
    rw [this.1, if_neg ht, if_pos ((inInt64_iff _).2 (by rw [hv]; exact ⟨h1, h2⟩)), this.2, hv]

theorem pInteger_sound (t : Text) (i : Int) (rest : Text) (h : pInteger t = some (i, rest)) :
    ∃ s, t = s ++ rest ∧ IntText i s ∧ Stops isDigit rest := by
  have hstop : ∀ t : Text, Stops isDigit (t.dropWhile isDigit) := by
    intro t
    induction t with
    | nil => intro x hx; simp at hx
    | cons c cs ih =>
      rw [List.dropWhile_cons]
      split
      · exact ih
      · rename_i hc
        intro x hx
        simp at hx; rw [← hx]; simpa using hc
  unfold pInteger at h
  split at h
  · rename_i r
    dsimp only at h
    split at h
    · cases h
    · rename_i hne
      split at h
      · rename_i h64
        injection h with h; injection h with e1 e2
        refine ⟨'-' :: r.takeWhile isDigit, ?_, ?_, ?_⟩
        · rw [← e2, List.cons_append, List.takeWhile_append_dropWhile]
        · rw [← e1]
          have := (inInt64_iff _).1 h64
          exact ⟨this.1, this.2, Or.inr ⟨_, _, rfl, rfl, hne,
            fun c hc => (isDigit_iff c).1 (mem_takeWhile_imp' _ _ _ hc), rfl⟩⟩
        · rw [← e2]; exact hstop r
      · cases h
  · dsimp only at h
    split at h
    · cases h
    · rename_i hne
      split at h
      · rename_i h64
        injection h with h; injection h with e1 e2
        refine ⟨t.takeWhile isDigit, ?_, ?_, ?_⟩
        · rw [← e2, List.takeWhile_append_dropWhile]
        · rw [← e1]
          have := (inInt64_iff _).1 h64
          exact ⟨this.1, this.2, Or.inl ⟨_, rfl, hne,
            fun c hc => (isDigit_iff c).1 (mem_takeWhile_imp' _ _ _ hc), rfl⟩⟩
        · rw [← e2]; exact hstop t
      · cases h

/-- End of an item: end of input or a separator. -/
def AtSep (rest : Text) : Prop := rest = [] ∨ ∃ c r, rest = c :: r ∧ (c = ',' ∨ c = ';')

theorem AtSep.stops_digit {rest : Text} (h : AtSep rest) : Stops isDigit rest := by
  rcases h with rfl | ⟨c, r, rfl, hc⟩
  · intro x hx; simp at hx
  · intro x hx
    simp at hx; subst hx
    rcases hc with rfl | rfl <;> decide

theorem pLineRange_complete (r : LineRange) (t rest : Text) (h : RangeText r t) (hr : AtSep rest) :
    pLineRange (t ++ rest) = some (r, rest) := by
  rcases h with ⟨he, hi⟩ | ⟨a, b, ha, hb, rfl⟩
  · unfold pLineRange
    rw [pInteger_complete _ t rest hi hr.stops_digit]
    have hr' : r = ⟨r.start, r.start⟩ := by cases r; simp at he; simp [he]
    dsimp only
    split
    · rename_i r' 
      rcases hr with e | ⟨c, q, e, hc⟩
      · cases e
      · injection e with e _
        rcases hc with hc | hc <;> rw [hc] at e <;> exact absurd e (by decide)
    · rw [← hr']
  · unfold pLineRange
    have h1 : a ++ ['.', '.'] ++ b ++ rest = a ++ ('.' :: '.' :: (b ++ rest)) := by simp
    rw [h1, pInteger_complete _ a _ ha (by intro x hx; simp at hx; rw [← hx]; decide)]
    show (match pInteger (b ++ rest) with
      | some (b, r'') => some (LineRange.mk r.start b, r'')
      | none => some (⟨r.start, r.start⟩, '.' :: '.' :: (b ++ rest))) = _
    rw [pInteger_complete _ b rest hb hr.stops_digit]

theorem pLineRange_sound (t : Text) (r : LineRange) (rest : Text) (h : pLineRange t = some (r, rest)) :
    ∃ s, t = s ++ rest ∧ RangeText r s := by
  unfold pLineRange at h
  cases h1 : pInteger t with
  | none => rw [h1] at h; cases h
  | some p =>
    obtain ⟨i, q⟩ := p
    obtain ⟨s, hs, hi, hst⟩ := pInteger_sound t i q h1
    clear hst
    rw [h1] at h
    dsimp only at h
    split at h
    · rename_i r'
      cases h2 : pInteger r' with
      | none =>
        rw [h2] at h
        injection h with h; injection h with e1 e2
        subst e1 e2
        exact ⟨s, hs, Or.inl ⟨rfl, hi⟩⟩
      | some p =>
        obtain ⟨j, q'⟩ := p
        obtain ⟨s', hs', hj, _⟩ := pInteger_sound r' j q' h2
        rw [h2] at h
        injection h with h; injection h with e1 e2
        subst e1 e2
        exact ⟨s ++ ['.', '.'] ++ s', by rw [hs, hs']; simp, Or.inr ⟨s, s', hi, hj, rfl⟩⟩
    · injection h with h; injection h with e1 e2
      subst e1 e2
      exact ⟨s, hs, Or.inl ⟨rfl, hi⟩⟩

section Sep
variable {α : Type} (p : Text → Option (α × Text)) (item : α → Text → Prop)
  (complete : ∀ a t rest, item a t → AtSep rest → p (t ++ rest) = some (a, rest))
  (sound : ∀ t a rest, p t = some (a, rest) → ∃ s, t = s ++ rest ∧ item a s)
include complete sound

theorem listText_head {as : List α} {t : Text} (h : ListText item as t) :
    ∃ a s rest as', as = a :: as' ∧ t = s ++ rest ∧ item a s ∧ AtSep rest ∧
      ((as' = [] ∧ rest = []) ∨ ∃ c ts, rest = c :: ts ∧ (c = ',' ∨ c = ';') ∧ ListText item as' ts) := by
  cases h with
  | one h => exact ⟨_, _, [], [], rfl, by simp, h, Or.inl rfl, Or.inl ⟨rfl, rfl⟩⟩
  | cons h hc hs => exact ⟨_, _, _, _, rfl, rfl, h, Or.inr ⟨_, _, rfl, hc⟩, Or.inr ⟨_, _, rfl, hc, hs⟩⟩

theorem pSepRest_complete : ∀ (n : Nat) (as : List α) (t : Text), t.length ≤ n →
    ((as = [] ∧ t = []) ∨ ∃ c ts, t = c :: ts ∧ (c = ',' ∨ c = ';') ∧ ListText item as ts) →
    pSepRest p n t = (as, []) := by
  intro n
  induction n with
  | zero =>
    intro as t hn h
    rcases h with ⟨rfl, rfl⟩ | ⟨c, ts, rfl, _⟩
    · rfl
    · simp at hn
  | succ n ih =>
    intro as t hn h
    rcases h with ⟨rfl, rfl⟩ | ⟨c, ts, rfl, hc, hl⟩
    · rfl
    · obtain ⟨a, s, rest, as', rfl, rfl, hi, hsep, hrest⟩ := listText_head p item complete sound hl
      unfold pSepRest
      dsimp only
      rw [if_pos hc, complete a s rest hi hsep]
      dsimp only
      rw [ih as' rest (by simp at hn; omega) hrest]

theorem pSepRest_sound : ∀ (n : Nat) (as : List α) (t : Text), pSepRest p n t = (as, []) →
    ((as = [] ∧ t = []) ∨ ∃ c ts, t = c :: ts ∧ (c = ',' ∨ c = ';') ∧ ListText item as ts) := by
  intro n
  induction n with
  | zero =>
    intro as t h
    unfold pSepRest at h
    injection h with h1 h2
    exact Or.inl ⟨h1.symm, h2⟩
  | succ n ih =>
    intro as t h
    unfold pSepRest at h
    split at h
    · rename_i c r
      split at h
      · rename_i hc
        split at h
        · rename_i a r' hp
          dsimp only at h
          injection h with h1 h2
          obtain ⟨s, hs, hi⟩ := sound r a r' hp
          have := ih (pSepRest p n r').1 r' (by rw [← h2])
          refine Or.inr ⟨c, r, rfl, hc, ?_⟩
          rw [← h1]
          rcases this with ⟨e1, e2⟩ | ⟨c', ts, e, hc', hl⟩
          · rw [e1, hs, e2, List.append_nil]; exact .one hi
          · have := ListText.cons hi hc' hl
            rw [← e, ← hs] at this
            exact this
        · injection h with _ h2; cases h2
      · injection h with _ h2; cases h2
    · injection h with h1 _; exact Or.inl ⟨h1.symm, rfl⟩

theorem pSepAll_iff (t : Text) (as : List α) : pSepAll p t = some as ↔ ListText item as t := by
  constructor
  · intro h
    unfold pSepAll at h
    split at h
    · cases h
    · rename_i a r hp
      obtain ⟨s, hs, hi⟩ := sound t a r hp
      split at h
      · rename_i bs hb
        injection h with h
        rw [← h, hs]
        rcases pSepRest_sound p item complete sound _ _ _ hb with ⟨e1, e2⟩ | ⟨c', ts, e, hc', hl⟩
        · rw [e1, e2, List.append_nil]; exact .one hi
        · rw [e]; exact .cons hi hc' hl
      · cases h
  · intro h
    obtain ⟨a, s, rest, as', rfl, rfl, hi, hsep, hrest⟩ := listText_head p item complete sound h
    unfold pSepAll
    rw [complete a s rest hi hsep]
    dsimp only
    rw [pSepRest_complete p item complete sound rest.length as' rest (Nat.le_refl _) hrest]
end Sep

/-- **C39 (lines).** A text is accepted as a `lines=` selector with value `rs` if and only if it is a
list of ranges in the documented syntax, separated by `,` or `;`, spanning the whole text and
denoting exactly `rs`. -/
theorem line_ranges_iff (t : Text) (rs : List LineRange) : pLineRanges t = some rs ↔ ListText RangeText rs t :=
  pSepAll_iff pLineRange RangeText pLineRange_complete pLineRange_sound t rs

theorem pTagName_complete (alnum : Char → Bool) (hc : ClassOK alnum) (n rest : Text)
    (h : n = ['*'] ∨ n = ['*', '*'] ∨ (n ≠ [] ∧ ∀ c ∈ n, alnum c = true)) (hr : AtSep rest) :
    pTagName alnum (n ++ rest) = some (n, rest) := by
  obtain ⟨h1, h2, h3, h4, h5⟩ := hc
  have hstop : Stops alnum rest ∧ Stops (fun c => decide (c = '*')) rest := by
    rcases hr with rfl | ⟨c, r, rfl, hc⟩
    · exact ⟨by intro x hx; simp at hx, by intro x hx; simp at hx⟩
    · constructor <;> intro x hx <;> simp at hx <;> subst hx <;> rcases hc with rfl | rfl
      · exact h1
      · exact h2
      · decide
      · decide
  have star : ∀ k : Nat, k ≠ 0 → k ≤ 2 → pTagName alnum (List.replicate k '*' ++ rest) = some (List.replicate k '*', rest) := by
    intro k hk hk2
    unfold pTagName
    dsimp only
    have e1 : (List.replicate k '*' ++ rest).takeWhile alnum = [] := by
      cases k with
      | zero => exact absurd rfl hk
      | succ k => rw [List.replicate_succ, List.cons_append, List.takeWhile_cons, if_neg (by rw [h4]; simp)]
    rw [e1, if_neg (by simp)]
    have := takeWhile_append_stop (fun c => decide (c = '*')) (List.replicate k '*') rest
      (by intro x hx; simp [List.eq_of_mem_replicate hx]) hstop.2
    rw [this.1, this.2, if_pos ⟨by intro e; rw [List.replicate_eq_nil_iff] at e; exact hk e, by simpa using hk2⟩]
  rcases h with rfl | rfl | ⟨hne, ha⟩
  · exact star 1 (by decide) (by decide)
  · exact star 2 (by decide) (by decide)
  · have := takeWhile_append_stop alnum n rest ha hstop.1
    unfold pTagName
    dsimp only
    rw [this.1, if_pos hne, this.2]

theorem pTagName_sound (alnum : Char → Bool) (t n rest : Text) (h : pTagName alnum t = some (n, rest)) :
    t = n ++ rest ∧ (n = ['*'] ∨ n = ['*', '*'] ∨ (n ≠ [] ∧ ∀ c ∈ n, alnum c = true)) := by
  unfold pTagName at h
  dsimp only at h
  split at h
  · rename_i hne
    injection h with h; injection h with e1 e2
    subst e1 e2
    exact ⟨by rw [List.takeWhile_append_dropWhile], Or.inr (Or.inr ⟨hne, fun c hc => mem_takeWhile_imp' _ _ _ hc⟩)⟩
  · split at h
    · rename_i hs
      injection h with h; injection h with e1 e2
      subst e1 e2
      refine ⟨by rw [List.takeWhile_append_dropWhile], ?_⟩
      have hall : ∀ c ∈ t.takeWhile (fun c => decide (c = '*')), c = '*' := by
        intro c hc; simpa using mem_takeWhile_imp' _ _ _ hc
      have hrep := List.eq_replicate_of_mem hall
      have hlen := hs.2
      have hne : (t.takeWhile (fun c => decide (c = '*'))).length ≠ 0 := by
        intro e; exact hs.1 (List.length_eq_zero_iff.1 e)
      rw [hrep]
      generalize (t.takeWhile (fun c => decide (c = '*'))).length = k at *
      match k, hlen, hne with
      | 1, _, _ => exact Or.inl rfl
      | 2, _, _ => exact Or.inr (Or.inl rfl)
      | 0, _, h => exact absurd rfl h
      | k + 3, h, _ => omega
    · cases h

theorem pTagRange_complete (alnum : Char → Bool) (hc : ClassOK alnum) (r : TagRange) (t rest : Text)
    (h : TagText alnum r t) (hr : AtSep rest) : pTagRange alnum (t ++ rest) = some (r, rest) := by
  obtain ⟨hn, rfl⟩ := h
  obtain ⟨n, inc⟩ := r
  cases inc with
  | true =>
    unfold pTagRange
    rw [show (if (TagRange.mk n true).included = true then (TagRange.mk n true).name else '!' :: (TagRange.mk n true).name) = n from rfl]
    rw [pTagName_complete alnum hc n rest hn hr]
  | false =>
    rw [show (if (TagRange.mk n false).included = true then (TagRange.mk n false).name else '!' :: (TagRange.mk n false).name) = '!' :: n from rfl]
    have h0 : pTagName alnum ('!' :: (n ++ rest)) = none := by
      unfold pTagName
      dsimp only
      rw [List.takeWhile_cons, if_neg (by rw [hc.2.2.1]; simp), if_neg (by simp)]
    unfold pTagRange
    rw [List.cons_append, h0]
    show (pTagName alnum (n ++ rest)).map (fun p => (TagRange.mk p.1 false, p.2)) = _
    rw [pTagName_complete alnum hc n rest hn hr]
    rfl

theorem pTagRange_sound (alnum : Char → Bool) (t : Text) (r : TagRange) (rest : Text)
    (h : pTagRange alnum t = some (r, rest)) : ∃ s, t = s ++ rest ∧ TagText alnum r s := by
  unfold pTagRange at h
  split at h
  · rename_i n q hp
    injection h with h; injection h with e1 e2
    subst e1 e2
    have := pTagName_sound alnum t n q hp
    exact ⟨n, this.1, this.2, rfl⟩
  · split at h
    · rename_i q _
      cases hp : pTagName alnum q with
      | none => rw [hp] at h; cases h
      | some p =>
        obtain ⟨n, q'⟩ := p
        rw [hp] at h
        injection h with h; injection h with e1 e2
        subst e1 e2
        have := pTagName_sound alnum q n q' hp
        exact ⟨'!' :: n, by rw [this.1]; rfl, this.2, rfl⟩
    · cases h

/-- **C39 (tags).** A text is accepted as a `tags=` selector with value `rs` iff it is a list of
selectors in the documented syntax spanning the whole text and denoting exactly `rs`. -/
theorem tag_ranges_iff (alnum : Char → Bool) (hc : ClassOK alnum) (t : Text) (rs : List TagRange) :
    pTagRanges alnum t = some rs ↔ ListText (TagText alnum) rs t :=
  pSepAll_iff (pTagRange alnum) (TagText alnum) (pTagRange_complete alnum hc) (pTagRange_sound alnum) t rs

/-! ### Printing and parsing back -/

/-- The decimal digits of a number. -/
def decimal (n : Nat) : Text := if n < 10 then [Char.ofNat (48 + n)] else decimal (n / 10) ++ [Char.ofNat (48 + n % 10)]

theorem digit_ok : ∀ d : Nat, d < 10 → ('0' ≤ Char.ofNat (48 + d) ∧ Char.ofNat (48 + d) ≤ '9') ∧ digitVal (Char.ofNat (48 + d)) = d := by
  decide

theorem decimal_ok (n : Nat) : NatText n (decimal n) := by
  induction n using Nat.strongRecOn with
  | _ n ih =>
    unfold decimal
    split
    · rename_i h
      have := digit_ok n h
      refine ⟨by simp, by intro c hc; simp at hc; rw [hc]; exact this.1, ?_⟩
      simp only [digitsVal, List.foldl_cons, List.foldl_nil, this.2]; omega
    · rename_i h
      have hd := digit_ok (n % 10) (Nat.mod_lt _ (by decide))
      obtain ⟨h1, h2, h3⟩ := ih (n / 10) (by omega)
      refine ⟨by simp, ?_, ?_⟩
      · intro c hc
        rcases List.mem_append.1 hc with hc | hc
        · exact h2 c hc
        · simp at hc; rw [hc]; exact hd.1
      · unfold digitsVal at h3 ⊢
        rw [List.foldl_append, h3]
        simp only [List.foldl_cons, List.foldl_nil, hd.2]; omega

def showInt : Int → Text
  | .ofNat n => decimal n
  | .negSucc n => '-' :: decimal (n + 1)

theorem showInt_ok (i : Int) (h : -9223372036854775808 ≤ i ∧ i ≤ 9223372036854775807) : IntText i (showInt i) := by
  refine ⟨h.1, h.2, ?_⟩
  cases i with
  | ofNat n => exact Or.inl ⟨n, rfl, decimal_ok n⟩
  | negSucc n => exact Or.inr ⟨n + 1, decimal (n + 1), by omega, rfl, decimal_ok _⟩

def showRange (r : LineRange) : Text := showInt r.start ++ ['.', '.'] ++ showInt r.stop

/-- Printing with any separators. -/
def showSep {α : Type} (sh : α → Text) : α → List (Char × α) → Text
  | a, [] => sh a
  | a, (c, b) :: bs => sh a ++ c :: showSep sh b bs

theorem showSep_ok {α : Type} (item : α → Text → Prop) (sh : α → Text) : ∀ (bs : List (Char × α)) (a : α),
    item a (sh a) → (∀ p ∈ bs, (p.1 = ',' ∨ p.1 = ';') ∧ item p.2 (sh p.2)) →
    ListText item (a :: bs.map Prod.snd) (showSep sh a bs)
  | [], a, ha, _ => .one ha
  | (c, b) :: bs, a, ha, h => by
    have := h (c, b) List.mem_cons_self
    exact .cons ha this.1 (showSep_ok item sh bs b this.2 (fun p hp => h p (List.mem_cons_of_mem _ hp)))

def Fits (r : LineRange) : Prop :=
  (-9223372036854775808 ≤ r.start ∧ r.start ≤ 9223372036854775807) ∧
  (-9223372036854775808 ≤ r.stop ∧ r.stop ≤ 9223372036854775807)

/-- **C39**, round trip: printing any non-empty list of line ranges with any choice of separators and
parsing the text gives the list back. -/
theorem line_ranges_round_trip (r : LineRange) (rs : List (Char × LineRange)) (h : Fits r)
    (hs : ∀ p ∈ rs, (p.1 = ',' ∨ p.1 = ';') ∧ Fits p.2) :
    pLineRanges (showSep showRange r rs) = some (r :: rs.map Prod.snd) := by
  rw [line_ranges_iff]
  have ok : ∀ r, Fits r → RangeText r (showRange r) := fun r h =>
    Or.inr ⟨_, _, showInt_ok _ h.1, showInt_ok _ h.2, rfl⟩
  exact showSep_ok RangeText showRange rs r (ok r h) (fun p hp => ⟨(hs p hp).1, ok _ (hs p hp).2⟩)

def showTag (r : TagRange) : Text := if r.included then r.name else '!' :: r.name

def NameOK (alnum : Char → Bool) (r : TagRange) : Prop :=
  r.name = ['*'] ∨ r.name = ['*', '*'] ∨ (r.name ≠ [] ∧ ∀ c ∈ r.name, alnum c = true)

/-- **C39**, round trip for tag selectors. -/
theorem tag_ranges_round_trip (alnum : Char → Bool) (hc : ClassOK alnum) (r : TagRange) (rs : List (Char × TagRange))
    (h : NameOK alnum r) (hs : ∀ p ∈ rs, (p.1 = ',' ∨ p.1 = ';') ∧ NameOK alnum p.2) :
    pTagRanges alnum (showSep showTag r rs) = some (r :: rs.map Prod.snd) := by
  rw [tag_ranges_iff alnum hc]
  exact showSep_ok (TagText alnum) showTag rs r ⟨h, rfl⟩ (fun p hp => ⟨(hs p hp).1, (hs p hp).2, rfl⟩)

/-- **C03/C39 combined**: an include directive with `lines=` in the documented syntax selects exactly
the lines the denoted ranges select; with any other text it is an error. -/
theorem include_lines (env : Env) (i : Inclusion) (spec : Text) (hi : i.lines = some spec) (content : Text) :
    (∀ rs, ListText RangeText rs spec → selectLines env i content =
      .ok (((C03.numbered (scanLines content)).filter
        (fun p => decide (∃ r ∈ rs, C03.InRange r (p.2 : Int)) && !hasTag env.alnum p.1)).map Prod.fst)) ∧
    ((¬ ∃ rs, ListText RangeText rs spec) → selectLines env i content = .error .error) := by
  constructor
  · intro rs h
    unfold selectLines
    rw [hi]
    dsimp only
    rw [(line_ranges_iff spec rs).2 h]
    dsimp only
    rw [C03.lines_selected env.alnum rs _ (newLineRanges_perm rs) (newLineRanges_sorted rs)]
  · intro h
    unfold selectLines
    rw [hi]
    dsimp only
    cases hp : pLineRanges spec with
    | none => rfl
    | some rs => exact absurd ⟨rs, (line_ranges_iff spec rs).1 hp⟩ h

-- non-vacuity
example : ClassOK Char.isAlphanum := by unfold ClassOK; decide
example : pLineRanges "1..3;7,10..-1".toList = some [⟨1, 3⟩, ⟨7, 7⟩, ⟨10, -1⟩] := by decide
example : pTagRanges Char.isAlphanum "**;!b,c".toList = some [⟨"**".toList, true⟩, ⟨"b".toList, false⟩, ⟨"c".toList, true⟩] := by decide
example : pLineRanges "1..".toList = none ∧ pLineRanges "1, 2".toList = none ∧ pTagRanges Char.isAlphanum "***".toList = none := by decide
example : Fits ⟨1, -1⟩ := by unfold Fits; decide

end Verif.C39
