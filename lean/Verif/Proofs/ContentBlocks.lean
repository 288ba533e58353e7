import Verif.Proofs.ContentInline
/-!
Paragraphs and blocks say their text (C52).
-/
namespace Verif.Rend
open Verif.Tmpl (Tm Templates)
open Verif (Text)

theorem words_sep {c : Char} (hc : goSpace c = true) : ∀ a b : Text, words (a ++ c :: b) = words a ++ words b
  | [], b => by simp [words, hc]
  | d :: a, b => by
    have ih := words_sep hc a b
    rw [List.cons_append]
    conv => lhs; unfold words
    conv => rhs; arg 1; unfold words
    by_cases hd : goSpace d = true
    · rw [if_pos hd, if_pos hd]; exact ih
    · rw [if_neg hd, if_neg hd]
      cases a with
      | nil => simp [hc, words]
      | cons x a =>
        dsimp only [List.cons_append]
        by_cases hx : goSpace x = true
        · rw [if_pos hx, if_pos hx]
          rw [List.cons_append] at ih
          rw [ih]; rfl
        · rw [if_neg hx, if_neg hx]
          rw [List.cons_append] at ih
          rw [ih]
          cases h : words (x :: a) with
          | cons y ys => rfl
          | nil =>
            exfalso
            unfold words at h
            rw [if_neg hx] at h
            cases a with
            | nil => cases h
            | cons z a =>
              dsimp only at h
              split at h
              · cases h
              · split at h <;> cases h

theorem texts_sep {c : Char} (hc : goSpace c = true) (a b : Text) : texts (a ++ c :: b) = texts a ++ texts b := by
  unfold texts; rw [words_sep hc, List.map_append]

theorem texts_join : ∀ ls : List Text, texts (joinWith "\n".toList ls) = ls.flatMap texts
  | [] => rfl
  | [t] => by simp [joinWith]
  | t :: u :: l => by
    have ih := texts_join (u :: l)
    rw [List.flatMap_cons, ← ih]
    have : joinWith "\n".toList (t :: u :: l) = t ++ '\n' :: joinWith "\n".toList (u :: l) := by
      show t ++ ['\n'] ++ joinWith "\n".toList (u :: l) = _
      simp
    rw [this, texts_sep (by decide)]

theorem texts_splitNL (t : Text) : texts t = (splitNL t).flatMap texts := by
  rw [← texts_join, join_splitNL]

theorem piecesAll_append (src e : Bool) : ∀ a b : List El, piecesAll src e (a ++ b) = piecesAll src e a ++ piecesAll src e b
  | [], b => rfl
  | x :: a, b => by
    show pieces src e x ++ piecesAll src e (a ++ b) = (pieces src e x ++ piecesAll src e a) ++ piecesAll src e b
    rw [piecesAll_append src e a b, List.append_assoc]

theorem getLast_split {α : Type} {l : List α} {x : α} (h : l.getLast? = some x) : l = l.dropLast ++ [x] := by
  cases l with
  | nil => cases h
  | cons a l =>
    rw [List.getLast?_eq_some_getLast (by simp)] at h
    cases h
    exact (List.dropLast_concat_getLast (by simp)).symm

/-- Splitting into lines loses no text. -/
theorem splitPerLine_pieces (src e : Bool) : ∀ (els line : List El),
    (splitPerLine line els).flatMap (piecesAll src e) = piecesAll src e line ++ piecesAll src e els
  | [], line => by
    unfold splitPerLine
    cases line with
    | nil => rfl
    | cons x l => simp [piecesAll]
  | x :: els, line => by
    cases x with
    | str t =>
      have ht : pieces src e (.str t) = ((splitNL t).map (fun s => if s.isEmpty then [] else [El.str s])).flatMap (piecesAll src e) := by
        show texts t = _
        rw [texts_splitNL, List.flatMap_map]
        congr 1
        funext s
        cases s with
        | nil => rfl
        | cons c s => simp [piecesAll, pieces]
      show _ = piecesAll src e line ++ (pieces src e (.str t) ++ piecesAll src e els)
      rw [ht]
      unfold splitPerLine
      dsimp only
      generalize (splitNL t).map (fun s => if s.isEmpty then [] else [El.str s]) = parts
      cases parts with
      | nil => rw [splitPerLine_pieces src e els line]; rfl
      | cons p ps =>
        dsimp only
        cases hl : ps.getLast? with
        | none =>
          have : ps = [] := by simpa using hl
          subst this
          dsimp only
          rw [splitPerLine_pieces src e els _, piecesAll_append]
          simp [List.append_assoc]
        | some lastPart =>
          dsimp only
          have hp := getLast_split hl
          rw [List.flatMap_append, splitPerLine_pieces src e els _, List.flatMap_cons, piecesAll_append, List.flatMap_cons]
          conv => rhs; rw [hp]
          simp [List.append_assoc]
    | _ =>
      unfold splitPerLine
      rw [splitPerLine_pieces src e els _, piecesAll_append]
      show (piecesAll src e line ++ (pieces src e _ ++ [])) ++ _ = piecesAll src e line ++ (pieces src e _ ++ _)
      rw [List.append_nil, List.append_assoc]

section
variable {L : Lib} {w : Bool} {l : Nat} {tm : Templates → Tm} {env : Tmpl.Env}

theorem said_mem {m : List (String × List Piece)} : (m.map (·.1)).Nodup → ∀ p ∈ m, said m p.1 = p.2 := by
  induction m with
  | nil => intro _ p hp; nomatch hp
  | cons q m ih =>
    intro hn p hp
    rw [List.map_cons, List.nodup_cons] at hn
    unfold said
    rcases List.mem_cons.mp hp with rfl | hp
    · rw [if_pos rfl]
    · rw [if_neg, ih hn.2 p hp]
      intro e
      exact hn.1 (e ▸ List.mem_map_of_mem hp)

/-- What a template says, given the texts of its fields. -/
theorem exec_list (hL : Standard L) (known : List String) (m : List (String × List Piece)) (hs : writes known (m.map (·.1)) tm = true)
    (hn : (m.map (·.1)).Nodup) (hk : Truthy known env)
    (hm : ∀ p ∈ m, ∃ u, AMap.get env p.1 = some (.str u) ∧ InOrder p.2 u) : Keep w l (InOrder (m.flatMap (·.2))) (exec L tm env) := by
  have := exec_says (w := w) (l := l) hL hs hk (says_said hm)
  rw [List.flatMap_map] at this
  have e : m.flatMap (fun p => said m p.1) = m.flatMap (·.2) := by
    rw [List.flatMap_def, List.flatMap_def, List.map_congr_left (said_mem hn)]
  rw [e] at this
  exact this

end

section
variable {L : Lib} {re : El → M Text} {pl : Bool → El → Except Err Text} {src : Bool} {w : Bool} {l : Nat}

theorem block_says (hL : Standard L) {tm : Templates → Tm} (hs : writes [] ["Title", "Content"] tm = true) {env : Tmpl.Env} {title content : Text}
    {p1 p2 : List Piece} (e1 : AMap.get env "Title" = some (.str title)) (e2 : AMap.get env "Content" = some (.str content))
    (h1 : InOrder p1 title) (h2 : InOrder p2 content) : Keep w l (InOrder (p1 ++ p2)) (exec L tm env) :=
  exec2 hL hs (by decide) e1 e2 h1 h2

theorem quote_says (hL : Standard L) {tm : Templates → Tm} (hs1 : writes [] ["Title", "Content", "Attribution.First"] tm = true)
    (hs2 : writes ["Attribution.First"] ["Title", "Content", "Attribution.First", "Attribution.Second"] tm = true)
    (a : Attrs) {title roles content : Text} {p1 p2 : List Piece} (h1 : InOrder p1 title) (h2 : InOrder p2 content) :
    Keep w l (InOrder (p1 ++ p2 ++ attributionPieces a)) (exec L tm (quoteEnv a title roles content)) := by
  unfold attributionPieces
  cases ha : getStr a "quoteAuthor" with
  | none =>
    dsimp only
    refine exec3 hL hs1 (by decide) (by decide) (by decide) rfl rfl rfl h1 h2 ?_
    unfold attribution
    rw [ha]
    exact optTexts_getD
  | some t =>
    cases t with
    | nil =>
      dsimp only
      refine (exec3 hL hs1 (by decide) (by decide) (by decide) rfl rfl rfl h1 h2 (p3 := []) .nil)
    | cons c t =>
      dsimp only
      have := exec_list (w := w) (l := l) (env := quoteEnv a title roles content) hL ["Attribution.First"]
        [("Title", p1), ("Content", p2), ("Attribution.First", texts (c :: t)), ("Attribution.Second", optTexts (getStr a "quoteTitle"))] hs2
        (by show ["Title", "Content", "Attribution.First", "Attribution.Second"].Nodup; decide) ?_ ?_
      · simpa [List.append_assoc] using this
      · intro f hf v hv
        have : f = "Attribution.First" := by simpa using hf
        subst this
        have hv : some (Tmpl.Val.str (attribution a).1) = some v := hv
        cases hv
        unfold attribution
        rw [ha]
        rfl
      · intro p hp
        simp only [List.mem_cons, List.not_mem_nil, or_false] at hp
        rcases hp with rfl | rfl | rfl | rfl
        · exact ⟨_, rfl, h1⟩
        · exact ⟨_, rfl, h2⟩
        · refine ⟨_, rfl, ?_⟩
          unfold attribution; rw [ha]; exact shows_texts (Img.refl _)
        · refine ⟨_, rfl, ?_⟩
          unfold attribution; rw [ha]; exact optTexts_getD

/-! ### Paragraphs -/

theorem paragraphElements_says (hre : Good src re) (a : Attrs) (els : List El) :
    Keep w l (InOrder (piecesAll src (emb w l) els)) (paragraphElements L re a els) := by
  unfold paragraphElements
  refine Out.bind Keep.docAttrs fun doc _ => ?_
  refine Out.bind (renderAll_says hre els) fun t h => ?_
  split
  · exact Out.bind exec_any fun br _ => Keep.pure (h.ws shows_noSpace (ws_replace _ _))
  · exact Keep.pure h

theorem regularParagraph_says (hL : Standard L) (hre : Good src re) (a : Attrs) (els : List El) :
    Keep w l (InOrder (attrPieces src (emb w l) "title" a ++ piecesAll src (emb w l) els)) (regularParagraph L re a els) := by
  unfold regularParagraph
  refine Out.bind (paragraphElements_says hre a els) fun t h => Out.bind (elementRoles_any hre a) fun _ _ =>
    Out.bind (elementTitle_says hre a) fun _ h1 => ?_
  exact block_says hL (by decide +kernel) rfl rfl h1 (h.ws shows_noSpace (ws_trim space_nl _))

theorem manpageNameParagraph_says (hL : Standard L) (hre : Good src re) (els : List El) :
    Keep w l (InOrder (piecesAll src (emb w l) els)) (manpageNameParagraph L re els) := by
  unfold manpageNameParagraph
  exact Out.bind (renderAll_says hre els) fun _ h => exec1 hL (k1 := "Content") (by decide +kernel) rfl h

theorem embeddedParagraph_says (hL : Standard L) (hre : Good src re) (a : Attrs) (els : List El) :
    Keep w l (InOrder (piecesAll src (emb w l) els)) (embeddedParagraph L re a els) := by
  unfold embeddedParagraph
  exact Out.bind (renderAll_says hre els) fun _ h => exec1 hL (k1 := "Content") (by decide +kernel) rfl
    (h.ws shows_noSpace (ws_trimSpaces _))

theorem exampleParagraph_says (hL : Standard L) (hre : Good src re) (a : Attrs) (els : List El) :
    Keep w l (InOrder (attrPieces src (emb w l) "title" a ++ piecesAll src (emb w l) els)) (exampleParagraph L re a els) := by
  unfold exampleParagraph
  refine Out.bind (renderAll_says hre els) fun t h => Out.bind (elementRoles_any hre a) fun _ _ =>
    Out.bind (elementTitle_says hre a) fun _ h1 => ?_
  exact block_says hL (by decide +kernel) rfl rfl h1 (h.after _)

theorem listingParagraph_says (hL : Standard L) (hre : Good src re) (a : Attrs) (els : List El) :
    Keep w l (InOrder (attrPieces src (emb w l) "title" a ++ piecesAll src (emb w l) els)) (listingParagraph L re a els) := by
  unfold listingParagraph
  refine Out.bind (renderAll_says hre els) fun t h => Out.bind (elementRoles_any hre a) fun _ _ =>
    Out.bind (elementTitle_says hre a) fun _ h1 => ?_
  exact block_says hL (by decide +kernel) rfl rfl h1 h

/-! ### Sources -/

theorem sourceLine_says (e : Bool) : ∀ els : List El, Keep w l (fun r => InOrderBy Raw (piecesAll src e els) r.1) (sourceLine els)
  | [] => Keep.pure .nil
  | x :: els => by
    have ih := sourceLine_says e els
    cases x with
    | str t => exact Out.bind ih fun _ h => Keep.pure ((raw_texts t).append h)
    | special t => exact Out.bind ih fun _ h => Keep.pure ((raw_texts t).append h)
    | callout r => exact Out.bind ih fun _ h => Keep.pure h
    | _ => exact Out.error

theorem calloutsAll_any : ∀ rs : List Int, Keep w l (fun _ => True) (calloutsAll L rs)
  | [] => Keep.pure trivial
  | _ :: rs => Out.bind exec_any fun _ _ => Out.bind (calloutsAll_any rs) fun _ _ => Keep.pure trivial

theorem sourceLines_says (e : Bool) (a : Attrs) : ∀ (lines : List (List El)) (i : Nat),
    Keep w l (fun t => Highlights L → InOrder (lines.flatMap (piecesAll src e)) t) (sourceLines L a i lines)
  | [], _ => Keep.pure fun _ => .nil
  | line :: lines, i => by
    unfold sourceLines
    refine Out.bind (sourceLine_says (src := src) e line) fun tc h1 => Out.bind Keep.docAttrs fun doc _ => ?_
    refine Out.bind (w' := w) (l' := l) (P := fun h : Text => Highlights L → InOrder (piecesAll src e line) h) ?_ fun h h2 => ?_
    · cases hh : L.highlight doc a i tc.1 with
      | none => exact Out.error
      | some u => exact Keep.pure fun hi => hi _ _ _ _ _ hh _ h1
    · refine Out.bind (calloutsAll_any _) fun cs _ => Out.bind (sourceLines_says e a lines (i + 1)) fun u h3 => Keep.pure fun hi => ?_
      rw [List.flatMap_cons]
      exact (((h2 hi).after _).after _).append (h3 hi)

/-- What is said of the content of a source block. -/
def sourcePieces (src : Bool) (a : Attrs) (content : List Piece) : List Piece :=
  if src = true ∨ has a "language" = false then content else []

theorem language_empty {sprint : AV → Text} {a : Attrs} (h : has a "language" = false) : getStrD sprint a "language" [] = [] := by
  have : AMap.get a "language" = none := by
    unfold has at h
    cases hg : AMap.get a "language" with
    | none => rfl
    | some v => rw [hg] at h; cases h
  unfold getStrD
  rw [this]

theorem sourceContent_says (hre : Good src re) (hh : src = true → Highlights L) (a : Attrs) (els : List El) :
    Keep w l (fun r => InOrder (sourcePieces src a (piecesAll src true els)) r.1) (sourceContent L re a els) := by
  unfold sourceContent
  refine Out.bind Keep.docAttrs fun doc _ => ?_
  dsimp only
  refine Out.bind (P := InOrder (sourcePieces src a (piecesAll src true els))) (Keep.inBlock ?_) fun _ h => Keep.pure h
  split
  · refine (renderAll_says (w := true) hre els).mono fun t h => ?_
    unfold sourcePieces
    split
    · exact h
    · exact .nil
  · rename_i hl
    refine (sourceLines_says (src := src) true a _ 0).mono fun t h => ?_
    rw [splitPerLine_pieces] at h
    unfold sourcePieces
    split
    · rename_i hs
      rcases hs with hs | hs
      · exact h (hh hs)
      · exact absurd (Or.inl (language_empty hs)) hl
    · exact .nil

theorem sourceBlock_says (hL : Standard L) (hre : Good src re) (hh : src = true → Highlights L) (a : Attrs) (els : List El) :
    Keep w l (InOrder (attrPieces src (emb w l) "title" a ++ sourcePieces src a (piecesAll src true els))) (sourceBlock L re a els) := by
  unfold sourceBlock
  refine Out.bind (sourceContent_says hre hh a els) fun t h => Out.bind (elementRoles_any hre a) fun _ _ =>
    Out.bind (elementTitle_says hre a) fun _ h1 => ?_
  exact block_says hL (by decide +kernel) rfl rfl h1 (h.ws shows_noSpace (ws_trim space_nl _))

/-! ### Verses, quotes, admonitions -/

theorem verseParagraph_says (hL : Standard L) (hre : Good src re) (hpl : GoodPlain pl) (a : Attrs) (els : List El) :
    Keep w l (InOrder (attrPieces src (emb w l) "title" a ++ plainPiecesAll els ++ attributionPieces a)) (verseParagraph L re pl a els) := by
  unfold verseParagraph
  refine Out.bind (Keep.lift fun t h => plainAll_says (hpl false) h) fun t h => Out.bind (elementTitle_says hre a) fun _ h1 => ?_
  exact quote_says hL (by decide +kernel) (by decide +kernel) a h1 h

theorem quoteParagraph_says (hL : Standard L) (hre : Good src re) (a : Attrs) (els : List El) :
    Keep w l (InOrder (attrPieces src (emb w l) "title" a ++ piecesAll src (emb w l) els ++ attributionPieces a)) (quoteParagraph L re a els) := by
  unfold quoteParagraph
  refine Out.bind (paragraphElements_says hre a els) fun t h => Out.bind (elementTitle_says hre a) fun _ h1 => ?_
  exact quote_says hL (by decide +kernel) (by decide +kernel) a h1 h

theorem admonitionParagraph_says (hL : Standard L) (hre : Good src re) (a : Attrs) (els : List El) :
    Keep w l (InOrder (if piecesAll src (emb w l) els = [] then [] else attrPieces src (emb w l) "title" a ++ piecesAll src (emb w l) els))
      (admonitionParagraph L re a els) := by
  unfold admonitionParagraph
  cases getStr a "style" with
  | none => exact Out.error
  | some kind =>
    dsimp only
    refine Out.bind (renderIcon_any _ _ _) fun _ _ => ?_
    refine Out.bind (paragraphElements_says hre a els) fun t h => Out.bind (elementRoles_any hre a) fun _ _ =>
      Out.bind (elementTitle_says hre a) fun title h1 => ?_
    split
    · exact exec_any.mono fun _ _ => .nil
    · rename_i hp
      refine (exec_list hL ["Content"] [("Title", attrPieces src (emb w l) "title" a), ("Content", piecesAll src (emb w l) els)]
        (by show writes ["Content"] ["Title", "Content"] _ = true; decide +kernel) (by show ["Title", "Content"].Nodup; decide) ?_ ?_).mono fun _ h => by simpa using h
      · intro f hf v hv
        have : f = "Content" := by simpa using hf
        subst this
        have hv : some (Tmpl.Val.str t) = some v := hv
        cases hv
        cases t with
        | nil => exact absurd (h.empty shows_noSpace) hp
        | cons c t => rfl
      · intro p hp
        simp only [List.mem_cons, List.not_mem_nil, or_false] at hp
        rcases hp with rfl | rfl
        · exact ⟨_, rfl, h1⟩
        · exact ⟨_, rfl, h⟩

theorem literalParagraph_says (hL : Standard L) (hre : Good src re) (a : Attrs) (els : List El) :
    Keep w l (InOrder (attrPieces src (emb w l) "title" a ++ piecesAll src (emb w l) els)) (literalParagraph L re a els) := by
  unfold literalParagraph
  refine Out.bind (renderAll_says hre els) fun t h => ?_
  dsimp only
  refine Out.bind (elementRoles_any hre a) fun _ _ => Out.bind (elementTitle_says hre a) fun _ h1 => ?_
  refine block_says hL (by decide +kernel) rfl rfl h1 ?_
  split
  · exact h.ws shows_noSpace (ws_adjust _)
  · exact h

theorem passthroughParagraph_says (hre : Good src re) (els : List El) :
    Keep w l (InOrder (piecesAll src (emb w l) els)) (passthroughParagraph re els) :=
  Out.bind (passthroughContent_says hre els) fun _ h => Keep.pure (h.after _)

theorem renderParagraph_says (hL : Standard L) (hre : Good src re) (hpl : GoodPlain pl) (hh : src = true → Highlights L) (a : Attrs) (els : List El) :
    Keep w l (InOrder (pieces src (emb w l) (.paragraph a els))) (renderParagraph L re pl a els) := by
  unfold renderParagraph
  refine Out.bind Keep.get fun c hc => ?_
  unfold pieces
  by_cases he : emb w l = true
  · rw [if_pos he, if_pos]
    · have := embeddedParagraph_says (w := w) (l := l) hL hre a els
      rw [he] at this
      exact this
    · unfold emb at he
      rw [hc.1, hc.2]
      simpa using he
  · rw [if_neg he, if_neg]
    · have he' : emb w l = false := by simpa using he
      dsimp only
      have hreg := regularParagraph_says (w := w) (l := l) hL hre a els
      have hex := exampleParagraph_says (w := w) (l := l) hL hre a els
      have hli := listingParagraph_says (w := w) (l := l) hL hre a els
      have hso := sourceBlock_says (w := w) (l := l) hL hre hh a els
      have hve := verseParagraph_says (w := w) (l := l) hL hre hpl a els
      have hqu := quoteParagraph_says (w := w) (l := l) hL hre a els
      have had := admonitionParagraph_says (w := w) (l := l) hL hre a els
      have hlt := literalParagraph_says (w := w) (l := l) hL hre a els
      have hpa := passthroughParagraph_says (w := w) (l := l) hre els
      have hma := manpageNameParagraph_says (w := w) (l := l) hL hre els
      rw [he'] at hreg hex hli hso hve hqu had hlt hpa hma
      unfold paragraphPieces
      cases hs : getStr a "style" with
      | none => simpa using hreg
      | some s =>
        dsimp only
        simp only [Option.some.injEq]
        by_cases h1 : s = "example".toList
        · subst h1; exact hex
        rw [if_neg h1]
        by_cases h2 : s = "listing".toList
        · subst h2; exact hli
        rw [if_neg h2]
        by_cases h3 : s = "source".toList
        · rw [if_pos h3, if_pos h3]; exact hso
        rw [if_neg h3, if_neg h3]
        by_cases h4 : s = "verse".toList
        · rw [if_pos h4, if_pos h4]; exact hve
        rw [if_neg h4, if_neg h4]
        by_cases h5 : s = "quote".toList
        · rw [if_pos h5, if_pos h5]; exact hqu
        rw [if_neg h5, if_neg h5]
        by_cases h6 : s = "pass".toList
        · rw [if_pos h6, if_pos (Or.inl h6)]; exact hpa
        rw [if_neg h6]
        by_cases h7 : s = "manpage".toList
        · rw [if_pos h7, if_pos (Or.inr h7)]; exact hma
        rw [if_neg h7, if_neg (fun h => h.elim h6 h7)]
        by_cases h8 : s ∈ ["TIP".toList, "NOTE".toList, "IMPORTANT".toList, "WARNING".toList, "CAUTION".toList]
        · rw [if_pos h8]
          have h8' : s = "TIP".toList ∨ s = "NOTE".toList ∨ s = "IMPORTANT".toList ∨ s = "WARNING".toList ∨ s = "CAUTION".toList := by
            simpa only [List.mem_cons, List.not_mem_nil, or_false] using h8
          rw [if_pos h8']; exact had
        have h8' : ¬(s = "TIP".toList ∨ s = "NOTE".toList ∨ s = "IMPORTANT".toList ∨ s = "WARNING".toList ∨ s = "CAUTION".toList) := by
          simpa only [List.mem_cons, List.not_mem_nil, or_false] using h8
        rw [if_neg h8, if_neg h8']
        split
        · exact hlt
        · exact hreg
    · unfold emb at he
      rw [hc.1, hc.2]
      simpa using he

/-! ### Blocks -/

theorem renderBlock_says (hL : Standard L) (hre : Good src re) (hh : src = true → Highlights L) (k : BlockKind) (a : Attrs) (els : List El) :
    Keep w l (InOrder (pieces src (emb w l) (.block k a els))) (renderBlock L re k a els) := by
  have trim' : ∀ {ps : List Piece} {t : Text}, InOrder ps t → InOrder ps (trim (· == '\n') t) :=
    fun h => h.ws shows_noSpace (ws_trim space_nl _)
  unfold renderBlock pieces blockPieces
  cases k with
  | «example» =>
    dsimp only
    split
    · unfold admonitionBlock
      dsimp only
      refine Out.bind (renderIcon_any _ _ _) fun _ _ => Out.bind (renderAll_says hre els) fun t h => Out.bind (elementRoles_any hre a) fun _ _ =>
        Out.bind (elementTitle_says hre a) fun _ h1 => ?_
      exact block_says hL (by decide +kernel) rfl rfl h1 h
    · unfold exampleBlock
      refine Out.bind (renderAll_says hre els) fun t h => Out.bind (elementRoles_any hre a) fun _ _ =>
        Out.bind (caption_any _ _) fun _ _ => Out.bind (elementTitle_says hre a) fun _ h1 => ?_
      exact block_says hL (by decide +kernel) rfl rfl h1 h
  | fenced =>
    dsimp only
    unfold fencedBlock
    refine Keep.inBlock ?_
    refine Out.bind (renderAll_says hre els) fun t h => Out.bind (elementRoles_any hre a) fun _ _ =>
      Out.bind (elementTitle_says hre a) fun _ h1 => ?_
    exact block_says hL (by decide +kernel) rfl rfl h1 (trim' h)
  | literal =>
    dsimp only
    unfold literalBlock
    refine Out.bind (renderAll_says hre els) fun t h => Out.bind (elementRoles_any hre a) fun _ _ =>
      Out.bind (elementTitle_says hre a) fun _ h1 => ?_
    exact block_says hL (by decide +kernel) rfl rfl h1 (trim' h)
  | listing =>
    dsimp only
    unfold listingBlock
    by_cases hs : getStr a "style" = some "source".toList
    · rw [if_pos hs, if_pos hs]
      exact sourceBlock_says hL hre hh a els
    · rw [if_neg hs, if_neg hs]
      refine Keep.inBlock ?_
      refine Out.bind (renderAll_says hre els) fun t h => Out.bind (elementRoles_any hre a) fun _ _ =>
        Out.bind (elementTitle_says hre a) fun _ h1 => ?_
      exact block_says hL (by decide +kernel) rfl rfl h1 (trim' h)
  | markdownQuote =>
    dsimp only
    unfold markdownQuoteBlock
    refine Out.bind (renderAll_says hre els) fun t h => Out.bind (elementRoles_any hre a) fun _ _ =>
      Out.bind (elementTitle_says hre a) fun _ h1 => ?_
    exact quote_says hL (by decide +kernel) (by decide +kernel) a h1 (trim' h)
  | pass =>
    dsimp only
    unfold passthroughBlock
    refine Keep.inBlock ?_
    refine Out.bind (renderAll_says hre els) fun t h => Out.bind (elementRoles_any hre a) fun _ _ => ?_
    exact exec1 hL (k1 := "Content") (by decide +kernel) rfl (trim' h)
  | quote =>
    dsimp only
    unfold quoteBlock
    refine Out.bind (renderAll_says hre els) fun t h => Out.bind (elementRoles_any hre a) fun _ _ =>
      Out.bind (elementTitle_says hre a) fun _ h1 => ?_
    exact quote_says hL (by decide +kernel) (by decide +kernel) a h1 h
  | verse =>
    dsimp only
    unfold verseBlock
    refine Out.bind (elementRoles_any hre a) fun _ _ => ?_
    refine Keep.inBlock ?_
    refine Out.bind (renderAll_says hre els) fun t h => Out.bind (elementTitle_says hre a) fun _ h1 => ?_
    exact quote_says hL (by decide +kernel) (by decide +kernel) a h1 (trim' h)
  | sidebar =>
    dsimp only
    unfold sidebarBlock
    refine Out.bind (renderAll_says hre els) fun t h => Out.bind (elementRoles_any hre a) fun _ _ =>
      Out.bind (elementTitle_says hre a) fun _ h1 => ?_
    exact block_says hL (by decide +kernel) rfl rfl h1 h
  | «open» =>
    dsimp only
    unfold openBlock
    refine Out.bind (renderAll_says hre els) fun t h => Out.bind (elementRoles_any hre a) fun _ _ =>
      Out.bind (elementTitle_says hre a) fun _ h1 => ?_
    exact block_says hL (by decide +kernel) rfl rfl h1 h
  | other => exact Out.error

end

end Verif.Rend
