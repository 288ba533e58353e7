import Verif.Props.Headed

/-!
# C66 — The hypotheses can be met
-/
namespace Verif
namespace C66
open Headed
open Sectioned (Item Heading)
open Composed (Block)
open Rend hiding Item bind_ok Author expandRevision

/-- The code of the grammar that is used: the state is the length of the delimiter, and whether a header is allowed. -/
def sem : Peg.Sem (Nat × Bool) where
  letter := C63.sem.letter
  number := C63.sem.number
  pred id s st t := (if id = 176 then s.2 else if id = 181 then ((named st || mailed st) && decide (t.length < st.length)) else (C63.sem.pred id s.1 st t).1, (C63.sem.pred id s.1 st t).2, s.2)
  state _ s _ _ := s
  act id s _ _ := (s.1, if id = 48 then false else s.2)
  restore _ b := b

def acts : Peg.Code (Nat × Bool) := fun id s v t => C62.acts id s.1 v t

theorem acts_obey : Actions.Obeys acts := fun id s v t x h => C62.acts_obey id s.1 v t x h

theorem sem_other {id : Nat} (h1 : id ≠ 176) (h2 : id ≠ 181) (s : Nat × Bool) (st t : Text) : (sem.pred id s st t).1 = (C63.sem.pred id s.1 st t).1 := by
  show (if id = 176 then s.2 else if id = 181 then _ else (C63.sem.pred id s.1 st t).1) = _
  rw [if_neg h1, if_neg h2]

theorem sem_head : HeadCode sem Prod.snd (fun _ => false) where
  author _ _ _ := rfl
  top s _ _ := (Bool.and_true s.2).symm
  pred_ _ _ _ _ := rfl
  state_ _ _ _ _ := rfl
  act_ id s t u h := if_neg h
  restore_ _ _ h := h.symm

theorem sem_code : C59.Code sem where
  fragment s st t := by rw [sem_other (by decide) (by decide)]; exact C63.sem_code.fragment s.1 st t
  visible s p t := by rw [sem_other (by decide) (by decide)]; exact C63.sem_code.visible s.1 p t
  others id hid s st t h := by
    by_cases hi : id = 181
    · subst hi
      exact of_decide_eq_true (Bool.and_eq_true_iff.mp (show ((named st || mailed st) && decide (t.length < st.length)) = true from h)).2
    rw [sem_other (by rintro rfl; revert hid; decide) hi] at h
    exact C63.sem_code.others id hid s.1 st t h
  label s l z r hz h1 h2 h3 := by rw [sem_other (by decide) (by decide)]; exact C63.sem_code.label s.1 l z r hz h1 h2 h3
  ascii := C63.sem_code.ascii

theorem sem_place : C63.Place sem (fun _ => false) where
  top s st t := by rw [sem_other (by decide) (by decide)]; exact C63.sem_place.top s.1 st t
  level s k t h := by rw [sem_other (by decide) (by decide)]; exact C63.sem_place.level s.1 k t h
  pred_ _ _ _ _ := rfl
  state_ _ _ _ _ _ := rfl
  act_ _ _ _ _ := rfl
  restore_ _ _ _ := rfl

theorem sem_list : C64.ListCode sem where
  dots s k t h := by rw [sem_other (by decide) (by decide)]; exact C63.sem_list.dots s.1 k t h
  dash s w t h := by rw [sem_other (by decide) (by decide)]; exact C63.sem_list.dash s.1 w t h
  stars s w k t h h' := by rw [sem_other (by decide) (by decide)]; exact C63.sem_list.stars s.1 w k t h h'
  colon s t h := by rw [sem_other (by decide) (by decide)]; exact C63.sem_list.colon s.1 t h

theorem sem_lenCode : C49.LenCode sem Prod.fst where
  set x hx s p t := by
    have := C63.sem_lenCode.set x hx s.1 p t
    have h : x.1 ≠ 176 ∧ x.1 ≠ 181 := by
      have h : C49.setters.all (fun x => x.1 != 176 && x.1 != 181) = true := by decide
      simpa using List.all_eq_true.mp h x hx
    have e : sem.pred x.1 s (p ++ t) t = ((C63.sem.pred x.1 s.1 (p ++ t) t).1, (C63.sem.pred x.1 s.1 (p ++ t) t).2, s.2) := Prod.ext (sem_other h.1 h.2 s (p ++ t) t) rfl
    rw [e]
    exact this
  same x hx s p t := by
    have := C63.sem_lenCode.same x hx s.1 p t
    have h : x.1 ≠ 176 ∧ x.1 ≠ 181 := by
      have h : C49.matchers.all (fun x => x.1 != 176 && x.1 != 181) = true := by decide
      simpa using List.all_eq_true.mp h x hx
    have e : sem.pred x.1 s (p ++ t) t = ((C63.sem.pred x.1 s.1 (p ++ t) t).1, (C63.sem.pred x.1 s.1 (p ++ t) t).2, s.2) := Prod.ext (sem_other h.1 h.2 s (p ++ t) t) rfl
    rw [e]
    exact this
  pred_len i s st t hid := C63.sem_lenCode.pred_len i s.1 st t hid
  state_len _ _ _ _ := rfl
  act_len _ _ _ _ := rfl
  restore_len _ _ := rfl

/-- Two authors, the second with an address; a revision; a preamble and two sections. -/
def sample : Document where
  head := ⟨" ".toList, "User guide".toList, [],
    [⟨"Jean".toList, "Luc".toList, "De_la Tour".toList, []⟩, ⟨"Zo".toList, [], "May".toList, "zo@x.org".toList⟩],
    some ⟨"v".toList, "1.0".toList, "May 2, 2020".toList, "first: draft".toList⟩⟩
  body := [.block (.blank []), .block (.para ⟨"Hello".toList, []⟩ []), .block (.blank []),
    .heading ⟨1, " ".toList, "One".toList, []⟩, .block (.blank []), .block (.para ⟨"Text".toList, []⟩ []), .block (.blank []),
    .heading ⟨1, " ".toList, "One".toList, []⟩]

theorem sample_source : sample.source =
    "= User guide\nJean Luc De_la Tour; Zo May <zo@x.org>\nv1.0, May 2, 2020: first: draft\n\nHello\n\n== One\n\nText\n\n== One\n".toList := by decide +kernel

theorem para_of {c : Char} {r : Text} (h : ((c :: r).all (fun c => !Grammar.isEol c) && !C48.isSpace c && (c :: r).getLast?.all (fun c => !Grammar.isBlank c) && C59.alnum C63.sem c &&
      (match r with | d :: _ => !(d == '.' || d == ')') | [] => true)) = true)
    (h4 : ¬ [':', ':'] <:+: c :: r) (h5 : ∀ p ∈ C48.admonitions, ¬ p <+: c :: r) : (Block.para ⟨c :: r, []⟩ []).Ok (C59.alnum sem) := C63.para_of h h4 h5

theorem trimmed_of {t : Text} (h : (t.head?.all (fun c => !C48.isSpace c) && t.getLast?.all (fun c => !C48.isSpace c)) = true) : Trimmed t := by
  rw [Bool.and_eq_true] at h
  refine ⟨fun c hc => ?_, fun c hc => ?_⟩
  · have := h.1; rw [hc] at this; simpa using this
  · have := h.2; rw [hc] at this; simpa using this

theorem sample_authors : ∀ a ∈ sample.head.authors, a.Ok := by
  intro a ha
  have ha : a = ⟨"Jean".toList, "Luc".toList, "De_la Tour".toList, []⟩ ∨ a = ⟨"Zo".toList, [], "May".toList, "zo@x.org".toList⟩ := by
    rcases List.mem_cons.mp ha with h | h
    · exact .inl h
    · rcases List.mem_cons.mp h with h | h
      · exact .inr h
      · cases h
  rcases ha with rfl | rfl
  · exact ⟨by decide, by unfold Word; decide +kernel, by unfold Word; decide +kernel, by decide +kernel, fun _ => by decide +kernel, fun h => absurd h (by decide +kernel), trimmed_of (by decide +kernel), (fun _ h => nomatch h), trimmed_of rfl⟩
  · exact ⟨by decide, by unfold Word; decide +kernel, (fun _ h => nomatch h), by decide +kernel, fun h => absurd rfl h, fun _ => by unfold Word; decide +kernel, trimmed_of (by decide +kernel), by decide +kernel, trimmed_of (by decide +kernel)⟩

theorem sample_ok : sample.Ok (C59.alnum sem) where
  head := ⟨C63.heading_of (by decide +kernel) (by decide +kernel), sample_authors, by decide +kernel, by
    intro r hr
    have hr : some ⟨"v".toList, "1.0".toList, "May 2, 2020".toList, "first: draft".toList⟩ = some r := hr
    obtain rfl := Option.some.inj hr
    refine ⟨⟨by decide +kernel, by decide +kernel, by decide +kernel, by decide +kernel, trimmed_of (by decide +kernel), by decide +kernel, fun h => absurd h (by decide +kernel), by decide +kernel, trimmed_of (by decide +kernel),
      by decide +kernel, trimmed_of (by decide +kernel)⟩, fun h => nomatch h⟩⟩
  body := ⟨(fun _ h => nomatch h), trivial, para_of (by decide +kernel) (by decide +kernel) (by decide +kernel), trivial, (fun _ h => nomatch h), trivial,
    C63.heading_of (by decide +kernel) (by decide +kernel), trivial, (fun _ h => nomatch h), trivial, para_of (by decide +kernel) (by decide +kernel) (by decide +kernel), trivial,
    (fun _ h => nomatch h), trivial, C63.heading_of (by decide +kernel) (by decide +kernel), trivial, trivial⟩
  apart := .inr ⟨[], _, rfl⟩

theorem sample_lines : ∀ l ∈ sample.lines, C50.Untouched l := by
  have h : sample.lines.all (fun l => l.all (fun c => !Grammar.isEol c) && decide (utf8Len l ≤ 65535) &&
    ["include::", "ifdef::", "ifndef::", "ifeval::[", "endif::"].all (fun k => !k.toList.isPrefixOf l)) = true := by decide +kernel
  exact fun l hl => C50.untouched_of (List.all_eq_true.mp h l hl)

theorem sample_plain : ∀ x ∈ sample.body, x.Plain := by
  intro x hx
  simp only [sample, List.mem_cons, List.not_mem_nil, or_false] at hx
  rcases hx with rfl | rfl | rfl | rfl | rfl | rfl | rfl | rfl <;> first | trivial | (show Block.Plain _; unfold Block.Plain; decide +kernel)

/-- A whole page is asked for. -/
def wholeCfg : Config := ⟨[], true, ["style.css".toList], "2026-01-02".toList⟩

theorem wholeCfg_plain (R : Html.Rules) : Plain (C51.lib R) wholeCfg :=
  ⟨by show "article".toList ≠ "manpage".toList; decide +kernel, rfl, rfl, rfl, fun _ => rfl, fun _ => rfl, rfl, rfl, rfl⟩

/-- The page. -/
def samplePage : Text :=
  "<!DOCTYPE html>\n<html lang=\"en\">\n<head>\n<meta charset=\"UTF-8\">\n<meta http-equiv=\"X-UA-Compatible\" content=\"IE=edge\">\n<meta name=\"viewport\" content=\"width=device-width, initial-scale=1.0\">\n".toList ++
  "<meta name=\"generator\" content=\"libasciidoc\">\n<meta name=\"author\" content=\"Jean Luc De la Tour; Zo May\">\n<link type=\"text/css\" rel=\"stylesheet\" href=\"style.css\">\n".toList ++
  "<title>User guide</title>\n</head>\n<body class=\"article\">\n".toList ++
  "<div id=\"header\">\n<h1>User guide</h1>\n<div class=\"details\">\n<span id=\"author\" class=\"author\">Jean Luc De la Tour</span><br>\n".toList ++
  "<span id=\"author2\" class=\"author\">Zo May</span><br>\n<span id=\"email2\" class=\"email\"><a href=\"mailto:zo@x.org\">zo@x.org</a></span><br>\n".toList ++
  "<span id=\"revnumber\">version 1.0,</span>\n<span id=\"revdate\">May 2, 2020</span>\n<br><span id=\"revremark\">first: draft</span>\n</div>\n</div>\n".toList ++
  "<div id=\"content\">\n<div id=\"preamble\">\n<div class=\"sectionbody\">\n<div class=\"paragraph\">\n<p>Hello</p>\n</div>\n</div>\n</div>\n".toList ++
  "<div class=\"sect1\">\n<h2 id=\"_one\">One</h2>\n<div class=\"sectionbody\">\n<div class=\"paragraph\">\n<p>Text</p>\n</div>\n</div>\n</div>\n".toList ++
  "<div class=\"sect1\">\n<h2 id=\"_one_2\">One</h2>\n<div class=\"sectionbody\">\n</div>\n</div>\n</div>\n".toList ++
  "<div id=\"footer\">\n<div id=\"footer-text\">\nVersion 1.0<br>\nLast updated 2026-01-02\n</div>\n</div>\n</body>\n</html>\n".toList

/-- From what is written to what is shown. -/
example (c : Walk.Ctx) (fmt : Val → Text) : Nonempty (Stages C50.rawEnv 0 (rootCtx [] []) sem acts (0, true) C62.reader C59.world c fmt ⟨[], []⟩ (C51.lib Html.html) wholeCfg
    "= User guide\nJean Luc De_la Tour; Zo May <zo@x.org>\nv1.0, May 2, 2020: first: draft\n\nHello\n\n== One\n\nText\n\n== One\n".toList samplePage) := by
  have h := text_to_page C50.rawEnv_reads 0 (ctx := rootCtx [] []) rfl sem_code sem_place sem_head sem_list sem_lenCode acts_obey (s := (0, true)) rfl rfl (D := C62.reader) C62.reader_reads
    C59.world_grammatical c fmt (pa := ⟨[], []⟩) rfl rfl (L := C51.lib Html.html) (R := Html.html) rfl (wholeCfg_plain _) sample_ok sample_lines sample_plain
  have e2 : page (C51.lib Html.html).lower (C59.alnum sem) (settings (C51.lib Html.html) Html.html wholeCfg) sample = samplePage := by decide +kernel
  rw [sample_source, if_pos (show wholeCfg.wrap = true from rfl), e2] at h
  exact h

end C66
end Verif
