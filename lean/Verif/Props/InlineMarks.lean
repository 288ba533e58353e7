import Verif.Props.InlineSigns

/-!
# C65 — Inline markup: text with marks
-/
namespace Verif
namespace C65
open Peg Grammar Actions PlainText Inlined
open Walk (Any)
open Subs (Sub)
open Prose (char)

variable {σ : Type} {S : Sem σ} {A : Peg.Code σ} {E : List Sub} {f : σ → Option Char} {t w next : Text} {c : Char} {x : Option Char}

/-! ### The rules of marks -/

def onceText : Mark → Nat
  | .bold => R.SingleQuoteBoldText
  | .italic => R.SingleQuoteItalicText
  | .mono => R.SingleQuoteMonospaceText
  | .highlight => R.SingleQuoteMarkedText

def onceStart : Mark → Nat
  | .bold => R.SingleQuoteBoldTextStartDelimiter
  | .italic => R.SingleQuoteItalicTextStartDelimiter
  | .mono => R.SingleQuoteMonospaceTextStartDelimiter
  | .highlight => R.SingleQuoteMarkedTextStartDelimiter

def onceElements : Mark → Nat
  | .bold => R.SingleQuoteBoldTextElements
  | .italic => R.SingleQuoteItalicTextElements
  | .mono => R.SingleQuoteMonospaceTextElements
  | .highlight => R.SingleQuoteMarkedTextElements

def twiceText : Mark → Nat
  | .bold => R.DoubleQuoteBoldText
  | .italic => R.DoubleQuoteItalicText
  | .mono => R.DoubleQuoteMonospaceText
  | .highlight => R.DoubleQuoteMarkedText

def twiceStart : Mark → Nat
  | .bold => R.DoubleQuoteBoldTextStartDelimiter
  | .italic => R.DoubleQuoteItalicTextStartDelimiter
  | .mono => R.DoubleQuoteMonospaceTextStartDelimiter
  | .highlight => R.DoubleQuoteMarkedTextStartDelimiter

def twiceElements : Mark → Nat
  | .bold => R.DoubleQuoteBoldTextElements
  | .italic => R.DoubleQuoteItalicTextElements
  | .mono => R.DoubleQuoteMonospaceTextElements
  | .highlight => R.DoubleQuoteMarkedTextElements

/-- The kind of quoted text. -/
def kind : Mark → Nat
  | .bold => 0
  | .italic => 1
  | .mono => 2
  | .highlight => 3

/-- The codes of the rules, in the order of `Mark`: the first is that of bold text, and each mark has eleven. -/
def shift (m : Mark) (n : Nat) : Nat := n + 11 * kind m

theorem once_text (m : Mark) : grammar (onceText m) = .act (shift m 315) (.scope (.seq (.rule (onceStart m)) (.seq (.rule (onceElements m)) (.rule (onceEnd m))))) := by
  cases m <;> rfl

theorem once_elements (m : Mark) : grammar (onceElements m) =
    .act (shift m 317) (.scope (.seq (.notP (.rule R.Space)) (.seq (.plus (.rule (onceRule m))) (.pred (shift m 316))))) := by cases m <;> rfl

theorem once_start (m : Mark) : grammar (onceStart m) = .scope (.seq (.lit [m.char]) (.seq (.pred (shift m 313)) (.andP (.notP (.lit [m.char]))))) := by cases m <;> rfl

theorem twice_text (m : Mark) : grammar (twiceText m) =
    .act (shift m 311) (.scope (.seq (.rule (twiceStart m)) (.seq (.rule (twiceElements m)) (.rule (twiceEnd m))))) := by cases m <;> rfl

theorem twice_start (m : Mark) : grammar (twiceStart m) = .lit [m.char, m.char] := by cases m <;> rfl

theorem twice_end (m : Mark) : grammar (twiceEnd m) = .lit [m.char, m.char] := by cases m <;> rfl

theorem twice_elements (m : Mark) : grammar (twiceElements m) = .plus (.rule (twiceRule m)) ∨ grammar (twiceElements m) = .star (.rule (twiceRule m)) := by
  cases m <;> first | exact .inl rfl | exact .inr rfl

theorem char_marking (m : Mark) : m.char ∈ marking := by cases m <;> decide

/-! ### Ends -/

theorem never_Alphanum (hn : ∀ c ∈ next.head?, S.letter c = false ∧ S.number c = false) : Never grammar S (.rule R.Alphanum) next := by
  cases next with
  | nil => exact yields_rule yields_cls_nil
  | cons c next =>
    obtain ⟨h1, h2⟩ := hn c rfl
    exact yields_rule (yields_cls_no (by simp [Cls.has, h1, h2]))

theorem andP_not (h : Inl S A E f) {e : Exp} {st : Text} (hn : Never grammar S e t) (hs : Still grammar S f e) :
    Holds grammar S A f x st (.andP (.notP e)) t (fun o y => y = x ∧ o = some ([.nil], t)) := by
  refine holds_andP (P := fun o y => y = x ∧ o = some ([.nil], t)) h.lasting (holds_notP h.lasting (hn.holds hs) (fun y hy => ⟨hy.1, rfl⟩) (fun p y hy => nomatch hy.2))
    (fun y hy => nomatch hy.2) (fun p y hy => ⟨hy.1, rfl⟩)

theorem not_holds (h : Inl S A E f) {e : Exp} {st : Text} (hn : Never grammar S e t) (hs : Still grammar S f e) :
    Holds grammar S A f x st (.notP e) t (fun o y => y = x ∧ o = some ([.nil], t)) :=
  holds_notP h.lasting (hn.holds hs) (fun y hy => ⟨hy.1, rfl⟩) (fun p y hy => nomatch hy.2)

/-- A sequence of two that keep the view. -/
theorem seq_holds {a b : Exp} {st u u' : Text} (ha : Holds grammar S A f x st a t (fun o y => y = x ∧ ∃ v, o = some (v, u)))
    (hb : Holds grammar S A f x st b u (fun o y => y = x ∧ ∃ v, o = some (v, u'))) :
    Holds grammar S A f x st (.seq a b) t (fun o y => y = x ∧ ∃ v, o = some (v, u')) := by
  refine holds_seq ha (fun y hy => by obtain ⟨_, v, hv⟩ := hy; cases hv) ?_
  rintro v u1 y ⟨rfl, v', hv⟩
  cases hv
  refine hb.mono ?_
  rintro o z ⟨rfl, v'', rfl⟩
  exact ⟨rfl, _, rfl⟩

theorem some_of {o : Option (List Any × Text)} {y : Option Char} {v : List Any} {u : Text} (h : y = x ∧ o = some (v, u)) : y = x ∧ ∃ v, o = some (v, u) := ⟨h.1, v, h.2⟩

/-- The mark that ends the text. -/
theorem once_end (h : Inl S A E f) {m : Mark} (hg : ∀ c ∈ x, isGap c = false) (he : m.Ends S.letter S.number next) {st : Text} :
    Holds grammar S A f x st (.rule (onceEnd m)) (m.char :: next) (fun o y => y = x ∧ ∃ v, o = some ([v], next)) := by
  have hA : ∀ st, Holds grammar S A f x st (.andP (.notP (.rule R.Alphanum))) next (fun o y => y = x ∧ ∃ v, o = some (v, next)) := fun st =>
    (andP_not h (never_Alphanum (fun c hc => ⟨(he c hc).1, (he c hc).2.1⟩)) (still h (by decide))).mono (fun _ _ => some_of)
  have hp : ∀ id, id ∈ [314, 325, 336, 347] → ∀ st, Holds grammar S A f x st (.pred id) next (fun o y => y = x ∧ ∃ v, o = some (v, next)) := by
    intro id hid st
    refine (pred_holds (b := true) h (fun s hs => ?_)).mono (fun o y hy => some_of hy)
    rw [h.tracks.closes _ _ _ _ hid, hs]
    cases x with
    | none => rfl
    | some d => have := hg d rfl; show (!spaceByte d) = true; rw [show spaceByte d = isGap d from rfl, this]; rfl
  have hlit : ∀ (d : Char) st, Holds grammar S A f x st (.lit [d]) (d :: next) (fun o y => y = x ∧ ∃ v, o = some (v, next)) := fun d st =>
    (lit_holds h (by simp [matchLit])).mono (fun _ _ => some_of)
  have hnot : ∀ st, Holds grammar S A f x st (.notP (.lit [m.char])) next (fun o y => y = x ∧ ∃ v, o = some (v, next)) := by
    intro st
    refine (not_holds h ?_ (still_of h rfl)).mono (fun _ _ => some_of)
    refine yields_lit.to ?_
    cases next with
    | nil => cases m <;> rfl
    | cons d next => have := (he d rfl).2.2.1; simp [matchLit, Ne.symm this]
  have close : ∀ {e : Exp}, (∀ st, Holds grammar S A f x st e (m.char :: next) (fun o y => y = x ∧ ∃ v, o = some (v, next))) → ∀ st,
      Holds grammar S A f x st (.scope e) (m.char :: next) (fun o y => y = x ∧ ∃ v, o = some ([v], next)) := by
    intro e he st
    refine holds_scope h.lasting ((he _).mono ?_)
    rintro o y ⟨rfl, v, rfl⟩
    exact ⟨rfl, _, rfl⟩
  refine holds_rule ?_
  cases m with
  | bold => exact close (fun st => seq_holds (hlit '*' st) (seq_holds (hnot st) (seq_holds (hp _ (by decide) st) (hA st)))) _
  | italic => exact close (fun st => seq_holds (hlit '_' st) (seq_holds (hnot st) (seq_holds (hp _ (by decide) st) (hA st)))) _
  | highlight => exact close (fun st => seq_holds (hlit '#' st) (seq_holds (hnot st) (seq_holds (hp _ (by decide) st) (hA st)))) _
  | mono =>
    refine close (fun st => seq_holds ?_ (seq_holds (hlit '`' st) (seq_holds (hp _ (by decide) st) (hA st)))) _
    refine (not_holds h ?_ (still h (by decide))).mono (fun _ _ => some_of)
    refine begins_never (F := [['`', '"'], ['`', '\''], ['"'], ['\'']]) ?_ 40 _ (by decide +kernel)
    intro m hm hp
    obtain ⟨z, hz⟩ := hp
    simp only [List.mem_cons, List.not_mem_nil, or_false] at hm
    rcases hm with rfl | rfl | rfl | rfl
    · have e := (List.cons.inj hz).2
      have := ((he '"' (by rw [← e]; rfl)).2.2.2 rfl).1
      exact absurd rfl this
    · have e := (List.cons.inj hz).2
      have := ((he '\'' (by rw [← e]; rfl)).2.2.2 rfl).2
      exact absurd rfl this
    · exact absurd (List.cons.inj hz).1 (by decide)
    · exact absurd (List.cons.inj hz).1 (by decide)

/-- The mark that begins the text. -/
theorem once_begin (h : Inl S A E f) {m : Mark} (hm : MayOpen S.letter S.number x) (hb : t.head? ≠ some m.char) {st : Text} :
    Holds grammar S A f x st (.rule (onceStart m)) (m.char :: t) (fun o y => y = x ∧ ∃ v, o = some ([v], t)) := by
  refine holds_rule ?_
  rw [once_start]
  refine holds_scope h.lasting ?_
  have key : Holds grammar S A f x (m.char :: t) (.seq (.lit [m.char]) (.seq (.pred (shift m 313)) (.andP (.notP (.lit [m.char]))))) (m.char :: t)
      (fun o y => y = x ∧ ∃ v, o = some (v, t)) := by
    refine seq_holds ((lit_holds h (u := t) (by simp [matchLit])).mono (fun _ _ => some_of)) (seq_holds (u := t) ?_ ((andP_not h (yields_lit.to ?_) (still_of h rfl)).mono
      (fun _ _ => some_of)))
    · refine (pred_holds (b := true) h (fun s hs => ?_)).mono (fun o y hy => some_of hy)
      rw [h.tracks.opens _ _ _ _ (by cases m <;> decide), hs]
      cases x with
      | none => rfl
      | some d =>
        obtain ⟨h1, h2, h3⟩ := hm d rfl
        simp only [List.mem_cons, List.not_mem_nil, or_false, not_or] at h3
        simp [quoteAllowed, h1, h2, h3]
    · cases t with
      | nil => cases m <;> rfl
      | cons d t =>
        have : m.char ≠ d := fun e => hb (by rw [e]; rfl)
        simp [matchLit, this]
  refine key.mono ?_
  rintro o y ⟨rfl, v, rfl⟩
  exact ⟨rfl, _, rfl⟩

/-! ### Text with a mark on both sides -/

/-- At least one, if there is not none. -/
theorem plus_of_star {e : Exp} {st : Text} {Q : Option (List Any × Text) → Option Char → Prop} (h : Holds grammar S A f x st (.star e) t Q)
    (hn : ∀ y, ¬ Q (some ([.slice []], t)) y) : Holds grammar S A f x st (.plus e) t Q := by
  rintro s r hs ⟨n, hr⟩
  cases n with
  | zero => cases hr
  | succ n =>
    unfold runV at hr
    cases he : runV grammar S A n e st s t with
    | none => rw [he] at hr; cases hr
    | some q =>
      rw [he] at hr
      cases q with
      | fail s1 =>
        have : runV grammar S A (n + 1) (.star e) st s t = some (.ok s1 [.slice []] t) := by unfold runV; rw [he]
        exact absurd (h _ _ hs ⟨_, this⟩) (hn _)
      | ok s1 v u =>
        have : runV grammar S A (n + 1) (.star e) st s t = some r := by unfold runV; rw [he]; exact hr
        exact h _ _ hs ⟨_, this⟩

/-- The elements of a place are those of `w`, up to `next`. -/
def Loops (S : Sem σ) (A : Peg.Code σ) (f : σ → Option Char) (u : View) (pl : Place) (x : Option Char) (w next : Text) (g : Text) : Prop :=
  ∀ st, Holds grammar S A f x st (.star pl.body) (w ++ next) (fun o y => y = after x w ∧ ∃ vs, o = some ([.slice vs], next) ∧ Raw u vs g)

theorem loops_nil (h : Inl S A E f) {u : View} {pl : Place} (he : Ended S A f pl x next) : Loops S A f u pl x [] next [] := by
  intro st
  refine holds_star (element_stops h he) ?_ (fun v u y hy => nomatch hy.2)
  rintro y ⟨rfl, _⟩
  exact ⟨rfl, [], rfl, .nil⟩

theorem no_space (hb : ∃ c ∈ t.head?, isBlank c = false) : Never grammar S (.rule R.Space) t := by
  obtain ⟨c, hc, hb⟩ := hb
  cases t with
  | nil => cases hc
  | cons d t => cases hc; exact never_Space hb

theorem mark_tag (m : Mark) : kindTag (kind m) = m.tag := by cases m <;> rfl

theorem raw_one {u : View} {vs : List Any} {g : Text} (h : Raw u vs g) : Raw u [.slice vs] g := by
  have := Raw.slice h .nil
  rwa [List.append_nil] at this

theorem after_gap {w : Text} (hw : w.getLast? = some ' ') (hg : ∀ c ∈ after x w, isGap c = false) : False := by
  have : after x w = some (Inlined.lastByte ' ') := by unfold after; rw [hw]
  exact absurd (hg _ this) (by decide +kernel)

/-- Text with a mark on both sides. -/
theorem once_holds (h : Inl S A E f) {m : Mark} {u : View} {g : Text} (hl : Loops S A f u (.once m) x w (m.char :: next) g) (ho : MayOpen S.letter S.number x)
    (hb : m.Begins w) (hg : ∀ c ∈ after x w, isGap c = false) (he : m.Ends S.letter S.number next) {st : Text} :
    Holds grammar S A f x st (.rule (onceText m)) (m.char :: (w ++ m.char :: next)) (fun o _ => ∃ v, o = some ([v], next) ∧ Draws u [v] (tagged m.tag g)) := by
  obtain ⟨c, hc, hc1, hc2, _⟩ := hb
  have hw : w ≠ [] := by rintro rfl; cases hc
  have hh : (w ++ m.char :: next).head? = some c := by
    cases w with
    | nil => exact absurd rfl hw
    | cons d w => exact hc
  have hels : ∀ st, Holds grammar S A f x st (.rule (onceElements m)) (w ++ m.char :: next)
      (fun o y => y = after x w ∧ ∃ vs, o = some ([.slice vs], m.char :: next) ∧ Raw u vs g) := by
    intro st
    refine holds_rule ?_
    rw [once_elements]
    refine holds_act (P := fun o y => y = after x w ∧ ∃ vs, o = some ([.slice [.nil, .slice vs, .nil]], m.char :: next) ∧ Raw u vs g) (holds_scope h.lasting (holds_seq
      (not_holds h (no_space ⟨c, hh, hc1⟩) (still h (by decide))) (fun y hy => nomatch hy.2) ?_)) ?_ ?_
    · rintro v u1 y ⟨rfl, hv⟩
      cases hv
      refine holds_seq (plus_of_star (hl _) ?_) ?_ ?_
      · rintro y ⟨_, vs, hv, _⟩
        have := (Prod.mk.inj (Option.some.inj hv)).2
        have := congrArg List.length this
        rw [List.length_append] at this
        have := List.length_pos_iff.mpr hw
        omega
      · rintro y ⟨_, vs, hv, _⟩; cases hv
      · rintro v u1 y ⟨rfl, vs, hv, hr⟩
        cases hv
        refine (pred_holds (b := true) h (fun s hs => h.tracks.valid _ _ _ _ (by cases m <;> decide) ?_)).mono ?_
        · rw [C58.span_append]
          exact fun hs => after_gap hs hg
        · rintro o y ⟨rfl, rfl⟩
          exact ⟨rfl, vs, rfl, hr⟩
    · rintro y ⟨_, vs, hv, _⟩; cases hv
    · rintro s v u1 ⟨hy, vs, hv, hr⟩
      cases hv
      refine ⟨(h.tracks.act _ _ _ _ (by cases m <;> decide)).trans hy, vs, ?_, hr⟩
      rw [h.obeys (shift m 317) s _ _ (.slice vs) (by cases m <;> rfl)]
  refine holds_rule ?_
  rw [once_text]
  refine holds_act (P := fun o _ => ∃ a vs b, o = some ([.slice [a, .slice vs, b]], next) ∧ Raw u vs g) (holds_scope h.lasting (holds_seq
    (once_begin h ho (by rw [hh]; exact fun e => hc2 (Option.some.inj e))) (fun y hy => by obtain ⟨_, v, hv⟩ := hy; cases hv) ?_)) ?_ ?_
  · rintro v u1 y ⟨rfl, v', hv⟩
    cases hv
    refine holds_seq (hels _) (fun y hy => by obtain ⟨_, v, hv, _⟩ := hy; cases hv) ?_
    rintro v u1 y ⟨rfl, vs, hv, hr⟩
    cases hv
    refine (once_end h hg he).mono ?_
    rintro o y ⟨_, v, rfl⟩
    exact ⟨_, vs, _, rfl, hr⟩
  · rintro y ⟨_, _, _, hv, _⟩; cases hv
  · rintro s v u1 ⟨a, vs, b, hv, hr⟩
    cases hv
    refine ⟨_, rfl, ?_⟩
    rw [h.obeys (shift m 315) s _ _ (newQuotedText (kind m) (.slice vs)) (by cases m <;> rfl), ← mark_tag]
    exact quoted_raw (by cases m <;> decide) (raw_one hr)

/-- Text with two marks on both sides. -/
theorem twice_holds (h : Inl S A E f) {m : Mark} {u : View} {g : Text} (hl : Loops S A f u (.twice m) x w (m.char :: m.char :: next) g) (hw : w ≠ []) {st : Text} :
    Holds grammar S A f x st (.rule (twiceText m)) (m.char :: m.char :: (w ++ m.char :: m.char :: next))
      (fun o _ => ∃ v, o = some ([v], next) ∧ Draws u [v] (tagged m.tag g)) := by
  have hd : ∀ (y : Option Char) (z st : Text), Holds grammar S A f y st (.lit [m.char, m.char]) (m.char :: m.char :: z) (fun o y' => y' = y ∧ ∃ v, o = some ([v], z)) := by
    intro y z st
    refine (lit_holds h (u := z) (by simp [matchLit])).mono ?_
    rintro o y ⟨rfl, rfl⟩
    exact ⟨rfl, _, rfl⟩
  have hels : ∀ st, Holds grammar S A f x st (.rule (twiceElements m)) (w ++ m.char :: m.char :: next)
      (fun o y => y = after x w ∧ ∃ vs, o = some ([.slice vs], m.char :: m.char :: next) ∧ Raw u vs g) := by
    intro st
    refine holds_rule ?_
    rcases twice_elements m with e | e
    · rw [e]
      refine plus_of_star (hl _) ?_
      rintro y ⟨_, vs, hv, _⟩
      have := (Prod.mk.inj (Option.some.inj hv)).2
      have := congrArg List.length this
      rw [List.length_append] at this
      have := List.length_pos_iff.mpr hw
      omega
    · rw [e]; exact hl _
  refine holds_rule ?_
  rw [twice_text]
  refine holds_act (P := fun o _ => ∃ a vs b, o = some ([.slice [a, .slice vs, b]], next) ∧ Raw u vs g) (holds_scope h.lasting (holds_seq
    (holds_rule (by rw [twice_start]; exact hd _ _ _)) (fun y hy => by obtain ⟨_, v, hv⟩ := hy; cases hv) ?_)) ?_ ?_
  · rintro v u1 y ⟨rfl, v', hv⟩
    cases hv
    refine holds_seq (hels _) (fun y hy => by obtain ⟨_, v, hv, _⟩ := hy; cases hv) ?_
    rintro v u1 y ⟨rfl, vs, hv, hr⟩
    cases hv
    refine (holds_rule (by rw [twice_end]; exact hd _ _ _)).mono ?_
    rintro o y ⟨_, v, rfl⟩
    exact ⟨_, vs, _, rfl, hr⟩
  · rintro y ⟨_, _, _, hv, _⟩; cases hv
  · rintro s v u1 ⟨a, vs, b, hv, hr⟩
    cases hv
    refine ⟨_, rfl, ?_⟩
    rw [h.obeys (shift m 311) s _ _ (newQuotedText (kind m) (.slice vs)) (by cases m <;> rfl), ← mark_tag]
    exact quoted_raw (by cases m <;> decide) (raw_one hr)

/-! ### Which of the rules -/

theorem fail_at (h : Inl S A E f) {F : List Char} (hc : c ∉ F) (n : Nat) {e : Exp} {st : Text} (he : fails grammar F n e = true) :
    Holds grammar S A f x st e (c :: t) (fun o y => y = x ∧ o = none) :=
  fails_holds h.lasting h.tracks.pred hc n he

/-- Any quoted text without attributes. -/
theorem quoted_holds (h : Inl S A E f) {V : Any → Text → Prop} (hc : c ∈ marking)
    (hq : ∀ st, Holds grammar S A f x st (.alt (.rule R.SingleQuotedText) (.rule R.DoubleQuotedText)) (c :: t) (fun o _ => ∃ v u, o = some ([v], u) ∧ V v u)) (st : Text) :
    Holds grammar S A f x st (.rule R.QuotedText) (c :: t) (fun o _ => ∃ v u, o = some ([v], u) ∧ V v u) := by
  have hF : c ∉ ['\\', '['] := by
    have : ∀ d ∈ marking, d ∉ ['\\', '['] := by decide
    exact this c hc
  refine holds_rule (holds_skip h (fail_at h hF 12 (by decide +kernel)) (holds_rule ?_))
  refine holds_act (P := fun o _ => ∃ v u, o = some ([.slice [.nil, v]], u) ∧ V v u) (holds_scope h.lasting (holds_seq
    (P := fun o y => y = x ∧ o = some ([.nil], c :: t)) (holds_opt (fail_at h hF 12 (by decide +kernel)) (fun y hy => ⟨hy.1, rfl⟩) (fun p y hy => nomatch hy.2))
    (fun y hy => nomatch hy.2) ?_)) ?_ ?_
  · rintro v u y ⟨rfl, hv⟩
    cases hv
    refine (hq _).mono ?_
    rintro o z ⟨v, u, rfl, hV⟩
    exact ⟨v, u, rfl, hV⟩
  · rintro y ⟨v, u, hv, _⟩; cases hv
  · rintro s v u ⟨v', u', hv, hV⟩
    cases hv
    refine ⟨v', u, ?_, hV⟩
    rw [h.obeys 307 s _ _ _ rfl]

theorem other_once (h : Inl S A E f) {m : Mark} (hc : c ≠ m.char) {st : Text} : Holds grammar S A f x st (.rule (onceText m)) (c :: t) (fun o y => y = x ∧ o = none) :=
  fail_at (F := [m.char]) h (by simpa using hc) 10 (by cases m <;> decide +kernel)

theorem other_twice (h : Inl S A E f) {m : Mark} (hc : c ≠ m.char) {st : Text} : Holds grammar S A f x st (.rule (twiceText m)) (c :: t) (fun o y => y = x ∧ o = none) :=
  fail_at (F := [m.char]) h (by simpa using hc) 10 (by cases m <;> decide +kernel)

theorem not_sub (h : Inl S A E f) (hc : c ≠ '~') {st : Text} : Holds grammar S A f x st (.rule R.SubscriptText) (c :: t) (fun o y => y = x ∧ o = none) :=
  fail_at (F := ['~']) h (by simpa using hc) 10 (by decide +kernel)

theorem not_sup (h : Inl S A E f) (hc : c ≠ '^') {st : Text} : Holds grammar S A f x st (.rule R.SuperscriptText) (c :: t) (fun o y => y = x ∧ o = none) :=
  fail_at (F := ['^']) h (by simpa using hc) 10 (by decide +kernel)

/-- Two marks are not one. -/
theorem not_once (h : Inl S A E f) {m : Mark} {st : Text} :
    Holds grammar S A f x st (.rule (onceText m)) (m.char :: m.char :: t) (fun o y => y = x ∧ o = none) := by
  refine holds_rule ?_
  rw [once_text]
  refine holds_act (P := fun o y => y = x ∧ o = none) (holds_scope h.lasting (holds_seq (P := fun o y => y = x ∧ o = none) (holds_rule ?_) (fun y hy => ⟨hy.1, rfl⟩)
    (fun v u y hy => nomatch hy.2))) (fun y hy => hy) (fun s v u hv => nomatch hv.2)
  rw [once_start]
  refine holds_scope h.lasting ?_
  refine holds_seq (lit_holds h (u := m.char :: t) (by simp [matchLit])) (fun y hy => nomatch hy.2) ?_
  rintro v u y ⟨rfl, hv⟩
  cases hv
  have hf : ∀ st, Holds grammar S A f y st (.andP (.notP (.lit [m.char]))) (m.char :: t) (fun o z => z = y ∧ o = none) := by
    intro st
    refine holds_andP (P := fun o z => z = y ∧ o = none) h.lasting (holds_notP h.lasting (lit_holds h (u := t) (by simp [matchLit])) (fun z hz => nomatch hz.2)
      (fun p z hz => ⟨hz.1, rfl⟩)) (fun z hz => hz) (fun p z hz => nomatch hz.2)
  refine holds_seq (P := fun o z => z = y ∧ (o = none ∨ o = some ([.nil], m.char :: t))) ?_ (fun z hz => ⟨hz.1, rfl⟩) ?_
  · rintro s r hs hr
    refine ⟨?_, ?_⟩
    · exact (still_of h (e := .pred (shift m 313)) (by cases m <;> rfl) _ _ _ _ hr.erase).trans hs
    · obtain ⟨n, hn⟩ := hr
      cases n with
      | zero => cases hn
      | succ n =>
        unfold runV at hn
        cases hp : S.pred (shift m 313) s (m.char :: m.char :: t) (m.char :: t) with
        | mk b z =>
          rw [hp] at hn
          cases b <;> cases hn
          · exact .inl rfl
          · exact .inr rfl
  · rintro v u z ⟨rfl, hv⟩
    rcases hv with hv | hv
    · cases hv
    · cases hv
      refine (hf _).mono ?_
      rintro o y ⟨rfl, rfl⟩
      exact ⟨rfl, rfl⟩

theorem drop_all {p : Char → Bool} : ∀ {w : Text}, (∀ c ∈ w, p c = true) → w.dropWhile p = []
  | [], _ => rfl
  | c :: w, h => by rw [List.dropWhile_cons_of_pos (h c List.mem_cons_self)]; exact drop_all (fun d hd => h d (List.mem_cons_of_mem _ hd))

/-- Subscripts and superscripts. -/
theorem script_holds (h : Inl S A E f) {u : View} {up : Bool} (hw : w ≠ []) (hc : ∀ c ∈ w, c ∉ ['\r', '\n', ' ', if up then '^' else '~', '<', '>', '&'])
    (hr : ∀ c ∈ w.head?, c ∉ reserved) {st : Text} :
    Holds grammar S A f x st (.rule (if up then R.SuperscriptText else R.SubscriptText)) ((if up then '^' else '~') :: (w ++ (if up then '^' else '~') :: next))
      (fun o _ => ∃ v, o = some ([v], next) ∧ Draws u [v] (tagged (if up then "sup".toList else "sub".toList) (w.flatMap (char u.unicode)))) := by
  obtain ⟨c, w', rfl⟩ : ∃ c w', w = c :: w' := by cases w with | nil => exact absurd rfl hw | cons c w => exact ⟨c, w, rfl⟩
  have hflat : Flat (c :: w') := by
    intro d hd
    have := hc d hd
    simp only [List.mem_cons, List.not_mem_nil, or_false, not_or] at this
    simp [isSpecial, this]
  have hclass : ∀ d ∈ c :: w', (⟨true, ['\r', '\n', ' ', if up then '^' else '~'], [], false, false⟩ : Cls).has S.letter S.number d = true := by
    intro d hd
    have := hc d hd
    simp only [List.mem_cons, List.not_mem_nil, or_false, not_or] at this
    simp [Cls.has, this]
  have hel : ∀ st, Holds grammar S A f x st (.act (if up then 359 else 356) (.plus (.cls ⟨true, ['\r', '\n', ' ', if up then '^' else '~'], [], false, false⟩)))
      (c :: w' ++ (if up then '^' else '~') :: next) (fun o y => y = x ∧ o = some ([.text (c :: w')], (if up then '^' else '~') :: next)) := by
    intro st
    have hstop : ∀ d ∈ ((if up then '^' else '~') :: next).head?, (⟨true, ['\r', '\n', ' ', if up then '^' else '~'], [], false, false⟩ : Cls).has S.letter S.number d = false := by
      intro d hd
      cases hd
      cases up <;> rfl
    have hy := C58.yields_plus_class (S := S) (k := ⟨true, ['\r', '\n', ' ', if up then '^' else '~'], [], false, false⟩) (t := w' ++ (if up then '^' else '~') :: next)
      (hclass c List.mem_cons_self)
    have e := while_stops hstop (c :: w')
    have e1 : (c :: w').dropWhile ((⟨true, ['\r', '\n', ' ', if up then '^' else '~'], [], false, false⟩ : Cls).has S.letter S.number) = [] :=
      drop_all hclass
    rw [e1] at e
    have hy' : Yields grammar S (.plus (.cls ⟨true, ['\r', '\n', ' ', if up then '^' else '~'], [], false, false⟩)) (c :: w' ++ (if up then '^' else '~') :: next)
        (some ((if up then '^' else '~') :: next)) := by
      have := hy
      rw [show c :: (w' ++ (if up then '^' else '~') :: next) = c :: w' ++ (if up then '^' else '~') :: next from rfl, e.2] at this
      exact this
    have hx := exactly_of_yields (A := A) (id := if up then 359 else 356) (y := .text (c :: w')) hy' (fun s a => by
      rw [C58.span_append]
      refine h.obeys _ s _ _ _ ?_
      cases up <;> rfl) (st := st)
    intro s r hs hr
    exact ⟨(still_of h (by cases up <;> rfl) _ _ _ _ hr.erase).trans hs, hx _ _ hr⟩
  have hq : ∀ st, Holds grammar S A f x st (.rule R.QuotedText) (c :: w' ++ (if up then '^' else '~') :: next) (fun o y => y = x ∧ o = none) := fun st =>
    fail_at h (not_quoting (hr c rfl)) 30 (by decide +kernel)
  have hd : ∀ (y : Option Char) (z st : Text), Holds grammar S A f y st (.lit [if up then '^' else '~']) ((if up then '^' else '~') :: z) (fun o y' => y' = y ∧ ∃ v, o = some ([v], z)) := by
    intro y z st
    refine (lit_holds h (u := z) (by simp [matchLit])).mono ?_
    rintro o y ⟨rfl, rfl⟩
    exact ⟨rfl, _, rfl⟩
  have key : Holds grammar S A f x ((if up then '^' else '~') :: (c :: w' ++ (if up then '^' else '~') :: next))
      (.act (if up then 358 else 355) (.scope (.seq (.rule (if up then R.SuperscriptTextDelimiter else R.SubscriptTextDelimiter))
        (.seq (.rule (if up then R.SuperscriptTextElement else R.SubscriptTextElement)) (.rule (if up then R.SuperscriptTextDelimiter else R.SubscriptTextDelimiter))))))
      ((if up then '^' else '~') :: (c :: w' ++ (if up then '^' else '~') :: next))
      (fun o _ => ∃ v, o = some ([v], next) ∧ Draws u [v] (tagged (if up then "sup".toList else "sub".toList) ((c :: w').flatMap (char u.unicode)))) := by
    refine holds_act (P := fun o _ => ∃ a b, o = some ([.slice [a, .text (c :: w'), b]], next)) (holds_scope h.lasting (holds_seq
      (P := fun o y => y = x ∧ ∃ v, o = some ([v], c :: w' ++ (if up then '^' else '~') :: next)) (holds_rule ?_) (fun y hy => by obtain ⟨_, v, hv⟩ := hy; cases hv) ?_)) ?_ ?_
    · have := hd x (c :: w' ++ (if up then '^' else '~') :: next) ((if up then '^' else '~') :: (c :: w' ++ (if up then '^' else '~') :: next))
      cases up <;> exact this
    · rintro v u1 y ⟨rfl, v', hv⟩
      cases hv
      refine holds_seq (P := fun o z => z = y ∧ o = some ([.text (c :: w')], (if up then '^' else '~') :: next)) (holds_rule ?_) (fun y hy => nomatch hy.2) ?_
      · have h1 := hel (c :: w' ++ (if up then '^' else '~') :: next)
        cases up with
        | true => exact holds_skip h (hq _) (holds_rule h1)
        | false => exact holds_skip h (hq _) (holds_rule h1)
      · rintro v u1 z ⟨rfl, hv⟩
        cases hv
        have h2 : Holds grammar S A f z ((if up then '^' else '~') :: (c :: w' ++ (if up then '^' else '~') :: next))
            (.rule (if up then R.SuperscriptTextDelimiter else R.SubscriptTextDelimiter)) ((if up then '^' else '~') :: next) (fun o y' => y' = z ∧ ∃ v, o = some ([v], next)) := by
          have := hd z next ((if up then '^' else '~') :: next)
          refine holds_rule ?_
          cases up <;> exact this
        refine h2.mono ?_
        rintro o y ⟨_, v, rfl⟩
        exact ⟨_, _, rfl⟩
    · rintro y ⟨_, _, hv⟩; cases hv
    · rintro s v u1 ⟨a, b, hv⟩
      cases hv
      refine ⟨_, rfl, ?_⟩
      have hraw : Raw u [.text (c :: w')] ((c :: w').flatMap (char u.unicode)) := by
        have := Raw.text (u := u) hflat .nil
        rwa [List.append_nil] at this
      cases up with
      | true => rw [if_pos rfl, h.obeys 358 s _ _ (newQuotedText 5 (.text (c :: w'))) rfl]; exact quoted_raw (by decide) hraw
      | false => rw [if_neg (by decide), h.obeys 355 s _ _ (newQuotedText 4 (.text (c :: w'))) rfl]; exact quoted_raw (by decide) hraw
  refine holds_rule ?_
  cases up <;> exact key

end C65
end Verif
