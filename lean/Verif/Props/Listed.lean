import Verif.Props.Sectioned

/-!
# C64 — Lists, from the text to the page
-/
namespace Verif
namespace C64
open Listed
open Walk (Any)
open Rend hiding Item bind_ok

/-- **C64**: a list with lists in it, from the text to the page: every item is shown once, in the order of the text, in the list it belongs to, with the list that is in it. -/
theorem list_to_page {σ τ : Type} {env : Env} {S0 : Peg.Sem τ} {elem : τ → Option RawElem} {sects within0 : τ → Bool} (hE : C50.Reads env S0 elem sects within0)
    (files : Nat) {ctx : Verif.Ctx} (hroot : ctx.sectEnabled = false) {S : Peg.Sem σ} {A : Peg.Code σ} {len : σ → Nat} {within : σ → Bool} (hS : C59.Code S)
    (hP : C63.Place S within) (hI : ListCode S) (hlen : C49.LenCode S len) (hA : Actions.Obeys A) {s : σ} (hs : within s = false) {D : Refine.Reader} (hD : C62.ReadsBlocks D (C59.alnum S))
    {W : Walk.World} (hW : C59.Grammatical W) (c : Walk.Ctx) (fmt : Val → Text) {pa : CtxAttrs} (h1 : AMap.get pa.all "idprefix" = none)
    (h2 : AMap.get pa.all "idseparator" = none) {L : Lib} {R : Html.Rules} (hL : L.tmpl = Html.templatesOf R) {cfg : Config} (hcfg : C60.Article L cfg)
    (hT : AMap.get cfg.attrs "toc" = none) {ns : List Node} (hg : Ok (C59.alnum S) ns) (hu : ∀ l ∈ lines ns, C50.Untouched l) (hp : Plain ns) :
    Nonempty (C63.Stages env files ctx S A s D W c fmt pa L cfg (unlines (lines ns)) (html (getBoolD cfg.attrs "unicode" true) ns)) := by
  obtain ⟨e, below, rest, rfl, _⟩ := hg.first
  have h := C63.text_to_page hE files hroot hS hP hI hlen hA hs hD hW c fmt h1 h2 hL hcfg hT (xs := [.list (.node e below) rest]) ⟨hg, trivial, trivial⟩
    (by show ∀ l ∈ lines (.node e below :: rest) ++ [], C50.Untouched l; rw [List.append_nil]; exact hu)
    (fun x hx => by rw [List.mem_singleton.mp hx]; exact hp)
  have e1 : Sectioned.source [.list (.node e below) rest] = unlines (lines (.node e below :: rest)) := by
    show unlines (lines (.node e below :: rest) ++ []) = _
    rw [List.append_nil]
  have e2 : ∀ u, Sectioned.page L.lower (C59.alnum S) u [.list (.node e below) rest] = html u (.node e below :: rest) := by
    intro u
    show Sectioned.html L.lower u [(.list (.node e below) rest, [])] = _
    rw [Sectioned.html, Sectioned.html, List.append_nil]
  rw [e1, e2] at h
  exact h

/-! ### The hypotheses can be met -/

theorem not_looks {c d : Char} {r : Text} (h : (!(c ∈ ['-', '*', '.', ')'] || (decide ('0' ≤ c) && decide (c ≤ '9')) || c ∈ ['i', 'v', 'x', 'd', 'l', 'c', 'm'] || c ∈ ['I', 'V', 'X', 'D', 'L', 'C', 'M']) &&
    decide (d ≠ '.') : Bool) = true) : ¬ Looks (c :: d :: r) := by
  rintro ⟨m, hm, b, _, z, hz⟩
  simp only [Bool.and_eq_true, Bool.not_eq_true', Bool.or_eq_false_iff, decide_eq_true_eq, decide_eq_false_iff_not, List.mem_cons, List.not_mem_nil, or_false, not_or] at h
  obtain ⟨⟨⟨⟨h1, h2⟩, h3⟩, h4⟩, h5⟩ := h
  cases m with
  | dash => injection hz with e _; exact h1.1 e.symm
  | stars n =>
    obtain ⟨k, rfl⟩ := Nat.exists_eq_add_of_le' (show 1 ≤ n from hm.1)
    injection hz with e _; exact h1.2.1 e.symm
  | dots n =>
    obtain ⟨k, rfl⟩ := Nat.exists_eq_add_of_le' (show 1 ≤ n from hm.1)
    injection hz with e _; exact h1.2.2.1 e.symm
  | number ds =>
    obtain ⟨x, ds', rfl⟩ := List.exists_cons_of_ne_nil hm.1
    injection hz with e _
    have := hm.2 x List.mem_cons_self
    rw [e] at this
    simp [this.1, this.2] at h2
  | letter x => injection hz with _ e; injection e with e _; exact h5 e.symm
  | capital x => injection hz with _ e; injection e with e _; exact h5 e.symm
  | roman cs =>
    obtain ⟨x, cs', rfl⟩ := List.exists_cons_of_ne_nil hm.1
    injection hz with e _
    have := hm.2 x List.mem_cons_self
    rw [e] at this
    simp only [List.mem_cons, List.not_mem_nil, or_false] at this
    simp [h3] at this
  | capRoman cs =>
    obtain ⟨x, cs', rfl⟩ := List.exists_cons_of_ne_nil hm.1
    injection hz with e _
    have := hm.2 x List.mem_cons_self
    rw [e] at this
    simp only [List.mem_cons, List.not_mem_nil, or_false] at this
    simp [h4] at this

/-- An item of the sample. -/
def entry (skipped : List Text) (indent : String) (mark : Mark) (gap first : String) (more : List Paragraphs.Line) : Entry :=
  ⟨skipped, indent.toList, mark, gap.toList, ⟨first.toList, []⟩, more⟩

/-- Lists in lists; an item with two lines, and one after a blank line. -/
def sample : List Node :=
  [.node (entry [] "" (.stars 1) " " "First & last" [⟨"  second line".toList, " ".toList⟩])
     [.node (entry [] " " (.stars 2) " " "Below" [])
       [.node (entry [] "" (.number "1".toList) " " "Number" []) [],
        .node (entry ["".toList] "" (.number "12".toList) "  " "Two" []) []]],
   .node (entry [] "" (.stars 1) " " "Last" []) [.node (entry [] "" (.roman "i".toList) " " "Roman" []) []]]

theorem sample_source : unlines (lines sample) = "* First & last\n  second line \n ** Below\n1. Number\n\n12.  Two\n* Last\ni) Roman\n".toList := by decide +kernel

theorem entry_of {sk : List Text} {i : String} {m : Mark} {g f : String} {ls : List Paragraphs.Line} {alnum : Char → Bool}
    (h : (sk.all (fun l => l.all Grammar.isBlank) && i.toList.all Grammar.isBlank && decide (g.toList.head? = some ' ') && g.toList.all Grammar.isBlank &&
      f.toList.all (fun c => !Grammar.isEol c) && f.toList.getLast?.all (fun c => !Grammar.isBlank c) &&
      f.toList.head?.all (fun c => !C48.isSpace c && !['[', '*', '-'].contains c) && !f.toList.isEmpty &&
      (Prose.text (⟨f.toList, []⟩ :: ls)).getLast?.all (fun c => !C48.isSpace c)) = true) (hm : m.Ok) (hl : ∀ l ∈ ls, l.Ok ∧ Continues alnum l) : (entry sk i m g f ls).Ok alnum := by
  simp only [Bool.and_eq_true] at h
  obtain ⟨⟨⟨⟨⟨⟨⟨⟨a, b⟩, c⟩, d⟩, e⟩, f'⟩, g'⟩, i'⟩, j⟩ := h
  obtain ⟨x, y, hxy⟩ := List.exists_cons_of_ne_nil (show f.toList ≠ [] by simpa using i')
  have hx : C48.isSpace x = false ∧ x ∉ ['[', '*', '-'] := by
    rw [hxy] at g'
    simpa using g'
  refine ⟨fun l hl => List.all_eq_true.mp (List.all_eq_true.mp a l hl), List.all_eq_true.mp b, hm, ?_, ⟨?_, ?_, (fun _ h => nomatch h), ?_⟩, ⟨x, y, hxy, hx⟩, hl, ?_⟩
  · have c := of_decide_eq_true c
    show ∃ w, g.toList = ' ' :: w ∧ _
    revert c d
    cases g.toList with
    | nil => intro _ c; cases c
    | cons z w =>
      intro d c
      have c : z = ' ' := Option.some.inj c
      exact ⟨w, by rw [c], fun v hv => List.all_eq_true.mp d v (List.mem_cons_of_mem _ hv)⟩
  · intro v hv
    have hv : v ∈ f.toList ++ [] := hv
    rw [List.append_nil] at hv
    simpa using List.all_eq_true.mp e v hv
  · exact ⟨x, by show x ∈ f.toList; rw [hxy]; exact List.mem_cons_self, hx.1⟩
  · intro v hv
    rw [show f.toList.getLast? = some v from hv] at f'
    simpa using f'
  · intro v hv
    rw [show (Prose.text (⟨f.toList, []⟩ :: ls)).getLast? = some v from hv] at j
    simpa using j

theorem sample_ok : Ok (C59.alnum C63.sem) sample := by
  refine ⟨?_, ?_, ⟨_, _, _, rfl, rfl, trivial⟩⟩
  · intro e he
    have he : e ∈ [_, _, _, _, _, _] := he
    simp only [List.mem_cons, List.not_mem_nil, or_false] at he
    rcases he with rfl | rfl | rfl | rfl | rfl | rfl
    · refine entry_of (by decide +kernel) (by unfold Mark.Ok; decide) ?_
      intro l hl
      obtain rfl := List.mem_singleton.mp hl
      refine ⟨⟨by decide +kernel, ⟨'s', by decide +kernel, by decide⟩, by decide +kernel, by decide +kernel⟩, ⟨' ' :: ' ' :: [], 's', "econd line ".toList, by decide +kernel, by decide, by decide +kernel, ?_⟩, by decide +kernel⟩
      rw [show 's' :: "econd line ".toList = 's' :: 'e' :: "cond line ".toList by decide]
      exact not_looks (by decide)
    · exact entry_of (by decide +kernel) (by unfold Mark.Ok; decide) (fun _ h => nomatch h)
    · exact entry_of (by decide +kernel) (by unfold Mark.Ok; decide) (fun _ h => nomatch h)
    · exact entry_of (by decide +kernel) (by unfold Mark.Ok; decide) (fun _ h => nomatch h)
    · exact entry_of (by decide +kernel) (by unfold Mark.Ok; decide) (fun _ h => nomatch h)
    · exact entry_of (by decide +kernel) (by unfold Mark.Ok; decide) (fun _ h => nomatch h)
  · refine ⟨⟨rfl, fun _ => ⟨by decide, ?_⟩, ⟨⟨rfl, fun _ => ⟨by decide, ?_⟩, ⟨⟨rfl, fun h => absurd rfl h, trivial⟩, ⟨rfl, fun h => absurd rfl h, trivial⟩, trivial⟩⟩, trivial⟩⟩,
      ⟨rfl, fun _ => ⟨by decide, ?_⟩, ⟨⟨rfl, fun h => absurd rfl h, trivial⟩, trivial⟩⟩, trivial⟩
    · intro k j hk hj
      cases hk; cases hj; rfl
    · intro k j hk hj
      cases hk
    · intro k j hk hj
      cases hk

theorem sample_lines : ∀ l ∈ lines sample, C50.Untouched l := by
  have h : (lines sample).all (fun l => l.all (fun c => !Grammar.isEol c) && decide (utf8Len l ≤ 65535) &&
    ["include::", "ifdef::", "ifndef::", "ifeval::[", "endif::"].all (fun k => !k.toList.isPrefixOf l)) = true := by decide +kernel
  exact fun l hl => C50.untouched_of (List.all_eq_true.mp h l hl)

theorem sample_plain : Plain sample := by
  intro e he
  have he : e ∈ [_, _, _, _, _, _] := he
  simp only [List.mem_cons, List.not_mem_nil, or_false] at he
  rcases he with rfl | rfl | rfl | rfl | rfl | rfl <;> (unfold PlainText.Plain; decide +kernel)

/-- From what is written to what is shown. -/
example (c : Walk.Ctx) (fmt : Val → Text) : Nonempty (C63.Stages C50.rawEnv 0 (rootCtx [] []) C63.sem C62.acts 0 C62.reader C59.world c fmt ⟨[], []⟩ (C51.lib Html.html) C60.plainCfg
    "* First & last\n  second line \n ** Below\n1. Number\n\n12.  Two\n* Last\ni) Roman\n".toList
    ("<div class=\"ulist\">\n<ul>\n<li>\n<p>First &amp; last\nsecond line</p>\n".toList ++
     "<div class=\"ulist\">\n<ul>\n<li>\n<p>Below</p>\n".toList ++
     "<div class=\"olist arabic\">\n<ol class=\"arabic\">\n<li>\n<p>Number</p>\n</li>\n<li>\n<p>Two</p>\n</li>\n</ol>\n</div>\n".toList ++
     "</li>\n</ul>\n</div>\n</li>\n<li>\n<p>Last</p>\n".toList ++
     "<div class=\"olist lowerroman\">\n<ol class=\"lowerroman\" type=\"i\">\n<li>\n<p>Roman</p>\n</li>\n</ol>\n</div>\n".toList ++
     "</li>\n</ul>\n</div>\n".toList)) := by
  have h := list_to_page C50.rawEnv_reads 0 (ctx := rootCtx [] []) rfl C63.sem_code C63.sem_place C63.sem_list C63.sem_lenCode C62.acts_obey (s := 0) rfl (D := C62.reader) C62.reader_reads
    C59.world_grammatical c fmt (pa := ⟨[], []⟩) rfl rfl (L := C51.lib Html.html) (R := Html.html) rfl
    (C60.plainCfg_article _) rfl sample_ok sample_lines sample_plain
  have e2 : html (getBoolD C60.plainCfg.attrs "unicode" true) sample =
    ("<div class=\"ulist\">\n<ul>\n<li>\n<p>First &amp; last\nsecond line</p>\n".toList ++
     "<div class=\"ulist\">\n<ul>\n<li>\n<p>Below</p>\n".toList ++
     "<div class=\"olist arabic\">\n<ol class=\"arabic\">\n<li>\n<p>Number</p>\n</li>\n<li>\n<p>Two</p>\n</li>\n</ol>\n</div>\n".toList ++
     "</li>\n</ul>\n</div>\n</li>\n<li>\n<p>Last</p>\n".toList ++
     "<div class=\"olist lowerroman\">\n<ol class=\"lowerroman\" type=\"i\">\n<li>\n<p>Roman</p>\n</li>\n</ol>\n</div>\n".toList ++
     "</li>\n</ul>\n</div>\n".toList) := by decide +kernel
  rw [sample_source, e2] at h
  exact h

/-- A list that begins with a number of two digits is taken for a paragraph (`ShortcutParagraph` only looks at the first character). -/
theorem finding_two_digits (c : Walk.Ctx) (fmt : Val → Text) : Nonempty (C63.Stages C50.rawEnv 0 (rootCtx [] []) C63.sem C62.acts 0 C62.reader C59.world c fmt ⟨[], []⟩ (C51.lib Html.html)
    C60.plainCfg "10. ten\n11. eleven\n".toList "<div class=\"paragraph\">\n<p>10. ten\n11. eleven</p>\n</div>\n".toList) := by
  have hp : (Composed.Block.para ⟨"10. ten".toList, []⟩ [⟨"11. eleven".toList, []⟩]).Ok (C59.alnum C63.sem) := by
    obtain ⟨h1, h2, _⟩ := C63.para_of (c := '1') (r := "0. ten".toList) (by decide +kernel) (by decide +kernel) (by decide +kernel)
    refine ⟨h1, h2, fun l hl => ?_⟩
    obtain rfl := List.mem_singleton.mp hl
    exact ⟨⟨by decide +kernel, ⟨'1', by decide +kernel, by decide⟩, (fun _ h => nomatch h), by decide +kernel⟩, by
      rintro x r h
      have h : '1' :: "1. eleven".toList = x :: r := h
      injection h with h _
      rw [← h]; decide⟩
  have h := C63.text_to_page C50.rawEnv_reads 0 (ctx := rootCtx [] []) rfl C63.sem_code C63.sem_place C63.sem_list C63.sem_lenCode C62.acts_obey (s := 0) rfl (D := C62.reader) C62.reader_reads
    C59.world_grammatical c fmt (pa := ⟨[], []⟩) rfl rfl (L := C51.lib Html.html) (R := Html.html) rfl
    (C60.plainCfg_article _) rfl (xs := [.block (.para ⟨"10. ten".toList, []⟩ [⟨"11. eleven".toList, []⟩])]) ⟨hp, trivial, trivial⟩
    (by
      have h : (Sectioned.lines [.block (.para ⟨"10. ten".toList, []⟩ [⟨"11. eleven".toList, []⟩])]).all (fun l => l.all (fun c => !Grammar.isEol c) && decide (utf8Len l ≤ 65535) &&
        ["include::", "ifdef::", "ifndef::", "ifeval::[", "endif::"].all (fun k => !k.toList.isPrefixOf l)) = true := by decide +kernel
      exact fun l hl => C50.untouched_of (List.all_eq_true.mp h l hl))
    (fun x hx => by
      rw [List.mem_singleton.mp hx]
      show PlainText.Plain _ _
      unfold PlainText.Plain
      decide +kernel)
  have e1 : Sectioned.source [.block (.para ⟨"10. ten".toList, []⟩ [⟨"11. eleven".toList, []⟩])] = "10. ten\n11. eleven\n".toList := by decide +kernel
  have e2 : Sectioned.page (C51.lib Html.html).lower (C59.alnum C63.sem) (getBoolD C60.plainCfg.attrs "unicode" true) [.block (.para ⟨"10. ten".toList, []⟩ [⟨"11. eleven".toList, []⟩])] =
    "<div class=\"paragraph\">\n<p>10. ten\n11. eleven</p>\n</div>\n".toList := by decide +kernel
  rw [e1, e2] at h
  exact h

end C64
end Verif
