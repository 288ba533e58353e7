import Verif.Proofs.RunsDoc
/-!
The depth to which a document must be rendered, and what its conditions mean for its rendering (C53, C54, C55).
-/
namespace Verif.Rend
open Verif.Tmpl (Tm Templates html5 xhtml5)
open Verif (Text)

theorem Below.mono {rank : Label → Nat} {k k' : Nat} {e : El} (h : Below rank k e) (hk : k ≤ k') : Below rank k' e :=
  Every.mono h fun _ h l hl => Nat.lt_of_lt_of_le (h l hl) hk

theorem max_all {α : Type} {P : Nat → α → Prop} (hm : ∀ {k k' a}, P k a → k ≤ k' → P k' a) :
    ∀ (l : List α), (∀ a ∈ l, ∃ k, P k a) → ∃ k, ∀ a ∈ l, P k a
  | [], _ => ⟨0, fun _ h => nomatch h⟩
  | a :: l, h => by
    obtain ⟨k1, h1⟩ := h a (List.mem_cons_self ..)
    obtain ⟨k2, h2⟩ := max_all (P := P) hm l fun b hb => h b (List.mem_cons_of_mem _ hb)
    refine ⟨max k1 k2, fun b hb => ?_⟩
    rcases List.mem_cons.mp hb with rfl | hb
    · exact hm h1 (Nat.le_max_left ..)
    · exact hm (h2 b hb) (Nat.le_max_right ..)

/-- What an element needs is below some rank. -/
theorem exists_below (rank : Label → Nat) (e : El) : ∃ k, Below rank k e := by
  generalize hn : sizeOf e = n
  induction n using Nat.strongRecOn generalizing e with
  | ind n ih =>
    obtain ⟨k, hk⟩ := max_all (P := fun k e => Below rank k e) (fun h hk => Below.mono h hk) (kids e) fun x hx => ih (sizeOf x) (hn ▸ size_kids hx) x rfl
    cases hl : needs e with
    | none => exact ⟨k, .intro (fun l h => by rw [hl] at h; cases h) hk⟩
    | some l =>
      refine ⟨max k (rank l + 1), .intro (fun l' h => ?_) fun x hx => Below.mono (hk x hx) (Nat.le_max_left ..)⟩
      rw [hl] at h
      cases h
      exact Nat.lt_of_lt_of_le (Nat.lt_succ_self _) (Nat.le_max_right ..)

/-- The elements of the parts of a document that are rendered. -/
def allEls (d : Doc) (cfg : Config) : List El :=
  d.elements ++ d.refs.flatMap (fun p => valueEls p.2) ++ d.footnotes.flatMap (·.els) ++ cfg.attrs.flatMap fun p => valueEls p.2

noncomputable def docSize (d : Doc) (cfg : Config) : Nat := sizeOf (allEls d cfg)

theorem size_all {d : Doc} {cfg : Config} {e : El} (h : e ∈ allEls d cfg) : sizeOf e ≤ docSize d cfg :=
  Nat.le_of_lt (List.sizeOf_lt_of_mem h)

section
variable {E : Err → Prop} {d : Doc} {cfg : Config} {L : Lib} {rank : Label → Nat} {K : Nat}

theorem mem_elements {e : El} (h : e ∈ d.elements) : e ∈ allEls d cfg :=
  List.mem_append_left _ (List.mem_append_left _ (List.mem_append_left _ h))
theorem mem_refs {p : Text × AV} {e : El} (hp : p ∈ d.refs) (h : e ∈ valueEls p.2) : e ∈ allEls d cfg :=
  List.mem_append_left _ (List.mem_append_left _ (List.mem_append_right _ (List.mem_flatMap.mpr ⟨p, hp, h⟩)))
theorem mem_notes {n : Footnote} {e : El} (hn : n ∈ d.footnotes) (h : e ∈ n.els) : e ∈ allEls d cfg :=
  List.mem_append_left _ (List.mem_append_right _ (List.mem_flatMap.mpr ⟨n, hn, h⟩))
theorem mem_config {p : String × AV} {e : El} (hp : p ∈ cfg.attrs) (h : e ∈ valueEls p.2) : e ∈ allEls d cfg :=
  List.mem_append_right _ (List.mem_flatMap.mpr ⟨p, hp, h⟩)

theorem fine_of {k : Nat} {e : El} (hf : E .fail ∨ Every kids (FailFree L d) e) (hp : E .panic ∨ Every kids (PanicFree L d) e)
    (hr : E .fuel ∨ Below rank k e ∧ Every kids (DeclBelow rank) e) : Every kids (Fine E d L rank k) e := by
  have h3 : E .fuel ∨ Every kids (fun x => (∀ l, needs x = some l → rank l < k) ∧ DeclBelow rank x) e := hr.imp (fun h => h) fun h => Every.and h.1 h.2
  have := ((every_or (fun _ _ => size_kids) hf).and (every_or (fun _ _ => size_kids) hp)).and (every_or (fun _ _ => size_kids) h3)
  exact this.mono fun x h => ⟨h.1.1, h.1.2, h.2⟩

theorem docGood_of (hr : E .fuel ∨ Ranked rank d cfg) (hp : E .panic ∨ NoPanic L d cfg) (hf : E .fail ∨ NoFail L d cfg)
    (hK : E .fuel ∨ (∀ e ∈ allEls d cfg, Below rank K e) ∧ rank .tocTitle < K ∧ ∀ p ∈ d.refs, rank (.ref p.1) < K) :
    DocGood E L rank (docSize d cfg) K d cfg := by
  have both : E .fuel ∨ Ranked rank d cfg ∧ ∀ e ∈ allEls d cfg, Below rank K e := by
    rcases hr with h | h
    · exact .inl h
    · exact hK.imp (fun h => h) fun h' => ⟨h, h'.1⟩
  refine ⟨?_, ?_, ?_, ?_, ?_, hp.imp (fun h => h) fun h => h.authors, hf.imp (fun h => h) fun h => h.toc, hK.imp (fun h => h) fun h => h.2⟩
  · intro e he
    have hm := bodyElements_mem he
    refine ⟨fine_of (hf.imp (fun h => h) fun h => h.body e he) (hp.imp (fun h => h) fun h => h.elements e hm) ?_, .inr (size_all (mem_elements hm))⟩
    exact both.imp (fun h => h) fun h => ⟨h.2 e (mem_elements hm), h.1.elements e hm⟩
  · intro a t els hh
    have hm := header_mem hh
    refine ⟨hf.imp (fun h => h) fun h => (h.header a t els hh).1, fun e he => ?_, hf.imp (fun h => h) fun h => (h.header a t els hh).2.2⟩
    have hk : e ∈ kids (.docHeader a t els) := he
    refine ⟨fine_of (hf.imp (fun h => h) fun h => (h.header a t els hh).2.1 e he)
      (hp.imp (fun h => h) fun h => (h.elements _ hm).kid hk) ?_, .inr ?_⟩
    · exact both.imp (fun h => h) fun h => ⟨Every.kid (h.2 _ (mem_elements hm)) hk, (h.1.elements _ hm).kid hk⟩
    · exact Nat.le_trans (Nat.le_of_lt (size_kids hk)) (size_all (mem_elements hm))
  · intro p hpr e he
    refine ⟨fine_of (hf.imp (fun h => h) fun h => h.refs p hpr e he) (hp.imp (fun h => h) fun h => h.refs p hpr e he) ?_,
      .inr (size_all (mem_refs hpr he))⟩
    exact hr.imp (fun h => h) fun h => ⟨h.refs p hpr e he, h.titles p hpr e he⟩
  · intro n hn e he
    refine ⟨fine_of (hf.imp (fun h => h) fun h => h.notes n hn e he) (hp.imp (fun h => h) fun h => h.notes n hn e he) ?_,
      .inr (size_all (mem_notes hn he))⟩
    exact both.imp (fun h => h) fun h => ⟨h.2 e (mem_notes hn he), h.1.notes n hn e he⟩
  · intro k v hv
    have hm := AMap.get_eq_some_mem hv
    refine ⟨hf.imp (fun h => h) fun h => (h.config _ hm).1, hp.imp (fun h => h) fun h => (h.config _ hm).1, ?_⟩
    rintro rfl e he
    refine ⟨fine_of (hf.imp (fun h => h) fun h => (h.config _ hm).2 e he) (hp.imp (fun h => h) fun h => (h.config _ hm).2 e he) ?_,
      .inr (size_all (mem_config hm he))⟩
    exact hr.imp (fun h => h) fun h => ⟨(h.config _ hm).1 rfl e he, (h.config _ hm).2 e he⟩

/-- A rank above all that the document needs. -/
theorem exists_rank (rank : Label → Nat) (d : Doc) (cfg : Config) :
    ∃ K, (∀ e ∈ allEls d cfg, Below rank K e) ∧ rank .tocTitle < K ∧ ∀ p ∈ d.refs, rank (.ref p.1) < K := by
  obtain ⟨k1, h1⟩ := max_all (P := fun k e => Below rank k e) (fun h hk => Below.mono h hk) (allEls d cfg) fun e _ => exists_below rank e
  obtain ⟨k2, h2⟩ := max_all (P := fun k (p : Text × AV) => rank (.ref p.1) < k) (fun h hk => Nat.lt_of_lt_of_le h hk) d.refs
    fun p _ => ⟨rank (.ref p.1) + 1, Nat.lt_succ_self _⟩
  refine ⟨max k1 (max k2 (rank .tocTitle + 1)), fun e he => Below.mono (h1 e he) (Nat.le_max_left ..), ?_, fun p hp => ?_⟩
  · omega
  · have := h2 p hp; omega

/-- The errors of the rendering of a document, to a sufficient depth. -/
theorem render_errors (hL : E .fail ∨ Standard L) (hr : E .fuel ∨ Ranked rank d cfg) (hp : E .panic ∨ NoPanic L d cfg)
    (hf : E .fail ∨ NoFail L d cfg) : ∃ n, ∀ m, n ≤ m → ∀ x, render L m d cfg = .error x → E x := by
  obtain ⟨K, hK⟩ := exists_rank rank d cfg
  refine ⟨docSize d cfg + K * docSize d cfg + 1, fun m hm x h => ?_⟩
  exact render_runs hL (docGood_of hr hp hf (.inr hK)) (.inr hm) h

end

end Verif.Rend
