import Verif.Props.Pictures
import Verif.Props.PicturesPage
import Verif.Props.Tables
/-! C76: images on their own with titles, which are captioned and numbered. -/
namespace Verif.C76
open Rend (AV El Attrs Lib M)
open Pictures
variable {L : Lib}

/-- An image on its own, with a title, is written with its caption before the title. -/
theorem figure_first {close : String} (hL : Draws L close) (n : Nat) {c₀ c : Rend.Ctx} {x : Picture} {cap : Text} (hx : x.alone = true) (hb : Bare x.attrs) (ht : text x.attrs "title" ≠ [])
    (hcap : Rend.optCaption true .image x.attrs c₀ = .ok (cap, c)) (hd : AMap.get c.attrs "data-uri" = none)
    (hp : c.prefixes.lookup x.place = none) (ha : (altText L.altOf x.attrs (source L.urlAbs (dirOf c) x.scheme x.path)).isSome) :
    Rend.renderElement L (n + 1) x.element c₀ = .ok (figure close L.urlAbs L.altOf (dirOf c) cap x, after L c x) := by
  obtain ⟨alt, ha'⟩ := Option.isSome_iff_exists.mp ha
  unfold figure Picture.element
  dsimp only
  rw [ha', if_pos hx]
  show Rend.renderImageBlock L _ (.loc x.place x.scheme (.str x.path)) x.attrs c₀ = _
  unfold Rend.renderImageBlock
  show M.bind (Rend.elementTitle _ x.attrs) _ c₀ = _
  unfold M.bind
  rw [image_title hb]
  show M.bind (Rend.optCaption (decide (text x.attrs "title" ≠ [])) .image x.attrs) _ c₀ = _
  unfold M.bind
  rw [decide_eq_true ht, hcap]
  show M.bind (Rend.imageRoles _ x.attrs) _ c = _
  unfold M.bind
  rw [image_roles hb]
  show M.bind (Rend.imageSrc L _) _ c = _
  unfold M.bind
  rw [src_first hd hp]
  show M.bind (Rend.imageAlt L x.attrs _) _ (after L c x) = _
  unfold M.bind
  rw [image_alt ha']
  show Rend.exec L _ _ _ = _
  rw [text_default hb (k := "link") (by simp), text_default hb (k := "width") (by simp), text_default hb (k := "height") (by simp), element_id, drawn_untitled]
  refine (block_written hL _ _ _ _ _ _ _ _ _ _).trans ?_
  rw [if_neg ht]
  simp only [List.append_assoc]
  rfl

/-- How many images had a number so far. -/
def count (c : Rend.Ctx) : Nat := (AMap.get c.counters "imageCounter").getD 0

/-- The label of images and the next number. -/
theorem caption_numbered {a : Attrs} {label : Text} {c : Rend.Ctx} (ha : AMap.get a "caption" = none) (hd : AMap.get c.attrs "figure-caption" = some (.str label)) (hl : label ≠ [])
    (hb : '{' ∉ label) : Rend.optCaption true .image a c = .ok (label ++ " ".toList ++ itoa (count c + 1) ++ ". ".toList, { c with counters := AMap.set c.counters "imageCounter" (count c + 1) }) := by
  have ht : Rend.captionText .image a c.attrs = label ++ " ".toList ++ Captions.Kind.image.placeholder ++ ". ".toList := by
    unfold Rend.captionText Rend.getStr
    rw [ha, show AMap.get c.attrs (Captions.Kind.captionAttr .image) = _ from hd]
    dsimp only
    rw [if_neg hl]
  obtain ⟨r, hr⟩ : ∃ r, Captions.Kind.image.placeholder = '{' :: r := ⟨_, rfl⟩
  have hsp : '{' ∉ label ++ " ".toList := by
    intro h
    rcases List.mem_append.mp h with h | h
    · exact hb h
    · revert h; decide
  show (if Captions.containsText Captions.Kind.image.placeholder (Rend.captionText .image a c.attrs) = true then _ else _ : M Text) c = _
  rw [ht, hr, if_pos (C77.contained _ _ _ _)]
  show Except.ok (replaceAll ('{' :: r) (itoa (Captions.getAndIncrement c.counters "imageCounter").1) (label ++ " ".toList ++ ('{' :: r) ++ ". ".toList),
    ({ c with counters := (Captions.getAndIncrement c.counters "imageCounter").2 } : Rend.Ctx)) = _
  rw [C77.replaced _ _ _ _ _ hsp (by decide)]
  have hg : Captions.getAndIncrement c.counters "imageCounter" = (count c + 1, AMap.set c.counters "imageCounter" (count c + 1)) := by
    unfold Captions.getAndIncrement count
    cases h : AMap.get c.counters "imageCounter" <;> rfl
  rw [hg]

/-- A caption of its own is shown instead, and no number is used. -/
theorem caption_own {a : Attrs} {t : Text} {c : Rend.Ctx} (ha : AMap.get a "caption" = some (.str t)) (hb : '{' ∉ t) : Rend.optCaption true .image a c = .ok (t, c) := by
  have ht : Rend.captionText .image a c.attrs = t := by
    unfold Rend.captionText Rend.getStr
    rw [ha]
  show (if Captions.containsText Captions.Kind.image.placeholder (Rend.captionText .image a c.attrs) = true then _ else _ : M Text) c = _
  rw [ht, if_neg (by rw [show Captions.Kind.image.placeholder = '{' :: "counter:figure-number}".toList from rfl, C77.not_contained _ _ _ hb]; exact Bool.false_ne_true)]
  rfl

/-- Any number of images on their own, with titles: they are numbered one after the other, after those before, and each is taken from `imagesdir`. -/
theorem figures_numbered {close : String} (hL : Draws L close) (n : Nat) {label : Text} (hl : label ≠ []) (hb : '{' ∉ label) : ∀ (l : List Picture) (c : Rend.Ctx),
    (∀ x ∈ l, x.alone = true ∧ Bare x.attrs ∧ text x.attrs "title" ≠ [] ∧ AMap.get x.attrs "caption" = none) → AMap.get c.attrs "data-uri" = none →
    AMap.get c.attrs "figure-caption" = some (.str label) → (∀ x ∈ l, c.prefixes.lookup x.place = none) → (l.map (·.place)).Nodup →
    (∀ x ∈ l, (altText L.altOf x.attrs (source L.urlAbs (dirOf c) x.scheme x.path)).isSome) →
    ∃ c', Rend.renderAll (Rend.renderElement L (n + 1)) (l.map (·.element)) c = .ok (figures close L.urlAbs L.altOf (dirOf c) label (count c) l, c') ∧ count c' = count c + l.length
  | [], c, _, _, _, _, _, _ => ⟨c, rfl, rfl⟩
  | x :: l, c, hx, hd, hf, hp, hu, ha => by
    obtain ⟨x1, x2, x3, x4⟩ := hx x List.mem_cons_self
    generalize hc1 : ({ c with counters := AMap.set c.counters "imageCounter" (count c + 1) } : Rend.Ctx) = c1
    have k1 : c1.attrs = c.attrs := by rw [← hc1]
    have k2 : c1.prefixes = c.prefixes := by rw [← hc1]
    have k3 : count c1 = count c + 1 := by
      rw [← hc1]
      show (AMap.get (AMap.set c.counters "imageCounter" (count c + 1)) "imageCounter").getD 0 = _
      rw [AMap.get_set_self]
      rfl
    have kd : dirOf c1 = dirOf c := by unfold dirOf; rw [k1]
    obtain ⟨ka, kp⟩ := after_keeps (L := L) c1 x
    have kc : count (after L c1 x) = count c + 1 := by
      rw [← k3]
      unfold after
      split <;> rfl
    have hdir : dirOf (after L c1 x) = dirOf c := by rw [← kd]; unfold dirOf; rw [ka]
    have hcap := caption_numbered x4 hf hl hb
    rw [hc1] at hcap
    have h1 := figure_first hL n x1 x2 x3 hcap (by rw [k1]; exact hd) (by rw [k2]; exact hp x List.mem_cons_self) (by rw [kd]; exact ha x List.mem_cons_self)
    obtain ⟨hx', hu'⟩ := List.nodup_cons.mp hu
    obtain ⟨c', ih, hc'⟩ := figures_numbered hL n hl hb l (after L c1 x) (fun y hy => hx y (List.mem_cons_of_mem _ hy)) (by rw [ka, k1]; exact hd) (by rw [ka, k1]; exact hf)
      (fun y hy => by
        rw [kp y.place fun e => hx' (List.mem_map.mpr ⟨y, hy, e⟩), k2]
        exact hp y (List.mem_cons_of_mem _ hy))
      hu' (fun y hy => by rw [hdir]; exact ha y (List.mem_cons_of_mem _ hy))
    refine ⟨c', ?_, by rw [hc', kc, List.length_cons]; omega⟩
    show M.bind (Rend.renderElement L (n + 1) x.element) _ c = _
    unfold M.bind
    rw [h1]
    show M.bind (Rend.renderAll _ _) _ (after L c1 x) = _
    unfold M.bind
    rw [ih, hdir, kc, kd]
    rfl

/-! ### A sample -/

def sampleFigures : List Picture :=
  [⟨true, 1, [], "a.png".toList, [("title", .str "A".toList)]⟩, ⟨true, 2, [], "b.png".toList, [("title", .str "B".toList)]⟩]

theorem sample_figures (c : Rend.Ctx) (ha : c.attrs = [("figure-caption", .str "Figure".toList)]) (hp : c.prefixes = []) (hc : c.counters = []) :
    ∃ c', Rend.renderAll (Rend.renderElement (C51.lib Html.html) 1) (sampleFigures.map (·.element)) c = .ok
      ("<div class=\"imageblock\">\n<div class=\"content\">\n<img src=\"a.png\" alt=\"a\">\n</div>\n<div class=\"title\">Figure 1. A</div>\n</div>\n".toList ++
       "<div class=\"imageblock\">\n<div class=\"content\">\n<img src=\"b.png\" alt=\"b\">\n</div>\n<div class=\"title\">Figure 2. B</div>\n</div>\n".toList, c') := by
  obtain ⟨c', h, _⟩ := figures_numbered draws_both.1 0 (label := "Figure".toList) (by decide) (by decide) sampleFigures c
    (fun x hx => by
      simp only [sampleFigures, List.mem_cons, List.not_mem_nil, or_false] at hx
      rcases hx with rfl | rfl <;>
      · refine ⟨rfl, ⟨fun v hv => ⟨_, (Option.some.inj hv).symm⟩, fun v hv => (nomatch hv), fun k hk v hv => ?_⟩, by decide +kernel, rfl⟩
        simp only [List.mem_cons, List.not_mem_nil, or_false] at hk
        rcases hk with rfl | rfl | rfl <;> exact (nomatch hv))
    (by rw [ha]; rfl) (by rw [ha]; rfl) (fun x _ => by rw [hp]; rfl) (by decide +kernel)
    (fun x _ => by
      unfold altText
      split
      · rfl
      · rfl)
  refine ⟨c', h.trans ?_⟩
  rw [show dirOf c = [] by unfold dirOf; rw [ha]; rfl, show count c = 0 by unfold count; rw [hc]; rfl]
  kernel_rfl

end Verif.C76
