import Verif.Lemmas.SplitSurfMesh

/-!
# Ordering one surface, and all of them
-/

namespace RSVS.SplitSurf

open RSVS RSVS.Mesh RSVS.Spec RSVS.Order

/-- The surface may only have its edges written again in another order. -/
def Kept (a b : Surf) : Prop := ∃ l o, b = { a with edgeind := l, isordered := o } ∧ ∀ e, e ∈ l ↔ e ∈ a.edgeind

/-- The volume may only have its surfaces written again. -/
def KeptV (x y : Volu) : Prop := ∃ l, y = { x with surfind := l } ∧ ∀ t, t ∈ l ↔ t ∈ x.surfind

theorem kept_refl (a : Surf) : Kept a a := ⟨a.edgeind, a.isordered, rfl, fun _ => Iff.rfl⟩

theorem keptV_refl (x : Volu) : KeptV x x := ⟨x.surfind, rfl, fun _ => Iff.rfl⟩

theorem forall₂_modify {α : Type} {R : α → α → Prop} (hr : ∀ a, R a a) (f : α → α) : ∀ (l : List α) (i : Nat),
    (∀ a, l[i]? = some a → R a (f a)) → List.Forall₂ R l (l.modify i f)
  | [], _, _ => by simp
  | a :: l, 0, h => by
    rw [List.modify_zero_cons]
    exact .cons (h a (by simp)) (forall₂_surfind_refl hr l)
  | a :: l, i + 1, h => by
    rw [List.modify_succ_cons]
    exact .cons (hr a) (forall₂_modify hr f l i fun b hb => h b (by simpa using hb))

theorem forall₂_mem {α β : Type} {R : α → β → Prop} {l : List α} {l' : List β} (h : List.Forall₂ R l l') :
    (∀ x ∈ l, ∃ y ∈ l', R x y) ∧ ∀ y ∈ l', ∃ x ∈ l, R x y := by
  induction h with
  | nil => simp
  | cons h _ ih =>
    constructor
    · intro x hx
      rcases List.mem_cons.1 hx with rfl | hx
      · exact ⟨_, List.mem_cons_self, h⟩
      · obtain ⟨y, hy, h⟩ := ih.1 x hx
        exact ⟨y, List.mem_cons_of_mem _ hy, h⟩
    · intro y hy
      rcases List.mem_cons.1 hy with rfl | hy
      · exact ⟨_, List.mem_cons_self, h⟩
      · obtain ⟨x, hx, h⟩ := ih.2 y hy
        exact ⟨x, List.mem_cons_of_mem _ hx, h⟩

theorem forall₂_field {α γ : Type} {R : α → α → Prop} {ix : α → γ} (hix : ∀ a b, R a b → ix b = ix a) {l l' : List α}
    (h : List.Forall₂ R l l') : l'.map ix = l.map ix := by
  induction h with
  | nil => rfl
  | cons h _ ih => simp [ih, hix _ _ h]

/-- Writing the same lists again changes nothing. -/
theorem retouch {m : Mesh} (hm : Sound m) {surfs : List Surf} {volus : List Volu} (hs : List.Forall₂ Kept m.surfs surfs)
    (hv : List.Forall₂ KeptV m.volus volus) :
    Sound { m with surfs := surfs, volus := volus } ∧ SplitBy m { m with surfs := surfs, volus := volus } id := by
  have his : surfs.map Surf.index = m.surfs.map Surf.index := forall₂_field (by rintro a b ⟨l, o, rfl, -⟩; rfl) hs
  have hiv : volus.map Volu.index = m.volus.map Volu.index := forall₂_field (by rintro a b ⟨l, rfl, -⟩; rfl) hv
  obtain ⟨s1, s2⟩ := forall₂_mem hs
  obtain ⟨v1, v2⟩ := forall₂_mem hv
  constructor
  · refine sound_mk ⟨hm.unique.verts, hm.unique.edges, by show (surfs.map _).Nodup; rw [his]; exact hm.unique.surfs,
      by show (volus.map _).Nodup; rw [hiv]; exact hm.unique.volus⟩ ⟨hm.pos.verts, hm.pos.edges, ?_, ?_⟩ (fun v e => FaceFan.sound_ve hm v e) ?_ ?_
    · rintro k ⟨x, hx, rfl⟩
      obtain ⟨y, hy, l, o, rfl, -⟩ := s2 x hx
      exact hm.pos.surfs _ ⟨y, hy, rfl⟩
    · rintro k ⟨x, hx, rfl⟩
      obtain ⟨y, hy, l, rfl, -⟩ := v2 x hx
      exact hm.pos.volus _ ⟨y, hy, rfl⟩
    · intro e s
      rw [show EdgeSurf { m with surfs := surfs, volus := volus } e s ↔ EdgeSurf m e s from Iff.rfl, ← FaceFan.sound_es hm]
      constructor
      · rintro ⟨x, hx, rfl, he⟩
        obtain ⟨y, hy, l, o, rfl, h⟩ := s2 x hx
        exact ⟨y, hy, rfl, (h e).1 he⟩
      · rintro ⟨x, hx, rfl, he⟩
        obtain ⟨y, hy, l, o, rfl, h⟩ := s1 x hx
        exact ⟨_, hy, rfl, (h e).2 he⟩
    · intro s c
      have h3 : SurfVolu { m with surfs := surfs, volus := volus } s c ↔ SurfVolu m s c := by
        constructor
        · rintro ⟨x, hx, rfl, he⟩
          obtain ⟨y, hy, l, o, rfl, h⟩ := s2 x hx
          exact ⟨y, hy, rfl, he⟩
        · rintro ⟨x, hx, rfl, he⟩
          obtain ⟨y, hy, l, o, rfl, h⟩ := s1 x hx
          exact ⟨_, hy, rfl, he⟩
      rw [h3, ← FaceFan.sound_sc hm]
      constructor
      · rintro ⟨x, hx, rfl, he⟩
        obtain ⟨y, hy, l, rfl, h⟩ := v2 x hx
        exact ⟨y, hy, rfl, (h s).1 he⟩
      · rintro ⟨x, hx, rfl, he⟩
        obtain ⟨y, hy, l, rfl, h⟩ := v1 x hx
        exact ⟨_, hy, rfl, (h s).2 he⟩
  · refine ⟨rfl, forall₂_surfind_refl (fun x => ⟨x.surfind, rfl⟩) _, hv.imp fun x y h => by obtain ⟨l, rfl, -⟩ := h; exact ⟨l, rfl⟩, rfl,
      ?_, ?_, ?_, ?_⟩
    · rintro s ⟨x, hx, rfl⟩
      obtain ⟨y, hy, l, o, rfl, h⟩ := s1 x hx
      exact ⟨⟨_, hy, rfl⟩, rfl⟩
    · intro g hg
      obtain ⟨y, hy, l, o, rfl, h⟩ := s2 g hg
      exact ⟨y, hy, rfl, rfl⟩
    · intro a ha e
      obtain ⟨y, hy, l, o, rfl, h⟩ := s1 a ha
      constructor
      · exact fun he => ⟨_, hy, rfl, (h e).2 he⟩
      · rintro ⟨g, hg, hgi, he⟩
        have : g = { a with edgeind := l, isordered := o } := inj_of_nodup (ix := Surf.index) (by rw [his]; exact hm.unique.surfs) hg hy hgi
        subst this
        exact (h e).1 he
    · intro g hg h hh hgh e _ _
      exact inj_of_nodup (ix := Surf.index) (by rw [his]; exact hm.unique.surfs) hg hh hgh

/-- How many edges the surface has. -/
def width (f : Surf) : Nat := (sortUnique f.edgeind).length

theorem rings_congr {m : Mesh} {l l' : List Int} (h : ∀ e, e ∈ l ↔ e ∈ l') (hr : Rings m l) : Rings m l' := by
  obtain ⟨es, xs, h1, h2, h3⟩ := hr
  exact ⟨es, xs, h1, fun e => (h2 e).trans (h e), h3⟩

/-- The surface at position `i` and those made from it are in order. -/
structure Done (m r : Mesh) (i : Nat) (k : Int) (src : Int → Int) (g : Surf) (new : List Surf) : Prop where
  sound : Sound r
  split : SplitBy m r src
  surfs : r.surfs = m.surfs.set i g ++ new
  few : ∀ f, m.surfs[i]? = some f → new.length ≤ width f
  loops : ∀ h ∈ g :: new, h.isordered = true ∧ OneLoop m h
  pair : k = -1 ∨ ((∀ f, m.surfs[i]? = some f → src k = f.index) ∧ HasSurf r k ∧ ¬ HasSurf m k)

theorem modify_eq_set {α : Type} {l : List α} {i : Nat} (hi : i < l.length) (f : α → α) : l.modify i f = l.set i (f l[i]) := by
  refine List.ext_getElem (by simp) fun j g1 g2 => ?_
  rw [List.getElem_modify, List.getElem_set]
  split
  · subst_vars; rfl
  · rfl

theorem pushed_kept {N : Int} {cs : List Int} {a b : List Volu} (hin : ∀ x ∈ a, x.index ∈ cs → N ∈ x.surfind) (h : Pushed N cs a b) :
    List.Forall₂ KeptV a b := by
  unfold Pushed at h
  induction h with
  | nil => exact .nil
  | @cons x y _ _ hd _ ih =>
    refine .cons ?_ (ih fun x hx => hin x (by simp [hx]))
    obtain ⟨l, rfl, hl⟩ := hd
    refine ⟨l, rfl, fun t => (hl t).trans ⟨?_, Or.inl⟩⟩
    rintro (h | ⟨rfl, h⟩)
    · exact h
    · exact hin x (by simp) h

theorem perm_width {l a b : List Int} (ha : a.Nodup) (hb : b.Nodup) (hd : ∀ e ∈ b, e ∉ a) (h : ∀ e, e ∈ l ↔ e ∈ a ∨ e ∈ b) :
    (sortUnique l).length = a.length + b.length := by
  have hn : (a ++ b).Nodup := List.nodup_append'.2 ⟨ha, hb, fun e he he' => hd e he' he⟩
  have := ((List.perm_ext_iff_of_nodup (nodup_sortUnique l) hn).2 fun e => by rw [mem_sortUnique, h, List.mem_append]).length_eq
  simpa using this

theorem atMost_width (m : Mesh) (f : Surf) : AtMost m f.edgeind (width f) := by
  intro L hn hL
  have h1 : L.length ≤ L.flatten.length := by
    clear hn
    induction L with
    | nil => simp
    | cons a L ih =>
      have h2 := ih fun b hb => hL b (by simp [hb])
      have h3 : 0 < a.length := List.length_pos_iff.2 (hL a (by simp)).1
      simp only [List.length_cons, List.flatten_cons, List.length_append]
      omega
  refine h1.trans ((hn.subperm fun e he => ?_).length_le)
  obtain ⟨a, ha, hea⟩ := List.mem_flatten.1 he
  exact mem_sortUnique.2 ((hL a ha).2.2 e hea)

theorem atMost_congr {m r : Mesh} {src : Int → Int} (h : SplitBy m r src) {l l' : List Int} (hl : ∀ e, e ∈ l ↔ e ∈ l') {k : Nat}
    (ha : AtMost m l k) : AtMost r l' k := fun L hn hL =>
  ha L hn fun a h' => by
    obtain ⟨h1, h2, h3⟩ := hL a h'
    exact ⟨h1, isLoop_congr (fun e _ v w => (splitBy_joins h e v w).1) h2, fun e he => (hl e).2 (h3 e he)⟩

theorem atMost_rest {m : Mesh} {l o rest : List Int} {k : Nat} (ha : AtMost m l k) (ho : IsLoop (EdgeJoins m) o) (hne : o ≠ []) (hn : o.Nodup)
    (hmem : ∀ e, e ∈ l ↔ e ∈ o ∨ e ∈ rest) (hdis : ∀ e ∈ rest, e ∉ o) : AtMost m rest (k - 1) := fun L hL h => by
  have h1 : (o :: L).length ≤ k := by
    refine ha (o :: L) ?_ fun a h' => ?_
    · rw [List.flatten_cons]
      refine List.nodup_append'.2 ⟨hn, hL, fun e he he' => ?_⟩
      obtain ⟨a, ha, hea⟩ := List.mem_flatten.1 he'
      exact hdis e ((h a ha).2.2 e hea) he
    · rcases List.mem_cons.1 h' with rfl | h'
      · exact ⟨hne, ho, fun e he => (hmem e).2 (Or.inl he)⟩
      · obtain ⟨h1, h2, h3⟩ := h a h'
        exact ⟨h1, h2, fun e he => (hmem e).2 (Or.inr (h3 e he))⟩
  simp only [List.length_cons] at h1
  omega

theorem order_at {tab : List Int → Table} (ht : ∀ l, IsTable l (tab l)) (cap : Nat) : ∀ (n : Nat) (m : Mesh) (i k0 : Nat) (f : Surf), Sound m →
    TwoVerts m → m.surfs[i]? = some f → Rings m f.edgeind → width f < n → AtMost m f.edgeind k0 → m.surfs.length + k0 ≤ cap + 1 →
    (2 < m.meshDim → 2 ≤ f.voluind.length) →
    ∃ r k src g new, orderAt tab n m cap i = .ok (r, cap, k) ∧ Done m r i k src g new ∧ (m.surfs.length ≤ cap → r.surfs.length ≤ cap) := by
  intro n
  induction n with
  | zero => intro m i k0 f _ _ _ _ h; omega
  | succ n ih =>
    intro m i k0 f hm h2 hfi hr hn hk hcap hdim
    obtain ⟨hi, hfe⟩ := List.getElem?_eq_some_iff.1 hfi
    have hf : f ∈ m.surfs := hfe ▸ List.getElem_mem _
    have helem : elemAt m.surfs (i : Int) = .ok f := by
      unfold elemAt
      simp [hfi]
    have hfm : ∀ {a : Surf}, m.surfs[i]? = some a → a = f := fun h => by rw [hfi] at h; exact (Option.some.inj h).symm
    unfold orderAt
    rw [helem]
    simp only [Except.bind]
    by_cases hne : f.edgeind = []
    · rw [if_pos hne]
      obtain ⟨r1, r2⟩ := retouch hm (forall₂_modify kept_refl (fun f => { f with isordered := true }) m.surfs i fun a _ =>
        ⟨a.edgeind, true, rfl, fun _ => Iff.rfl⟩) (forall₂_surfind_refl keptV_refl m.volus)
      refine ⟨_, -1, id, { f with isordered := true }, [], rfl, ⟨r1, r2, ?_, by simp, ?_, Or.inl rfl⟩, by simp⟩
      · simp [modify_eq_set hi, hfe]
      · simp only [List.mem_cons, List.not_mem_nil, or_false, forall_eq]
        exact ⟨trivial, Or.inl hne⟩
    rw [if_neg hne]
    obtain ⟨o, t, h3, h4, h5, h6, h7, h8⟩ := surf_order ht hm h2 hf hr hne
    rw [h3]
    simp only
    rcases h8 with ⟨rfl, h8⟩ | ⟨rfl, ⟨e0, he0, he0'⟩, h9⟩
    · rw [if_pos (by decide)]
      obtain ⟨r1, r2⟩ := retouch hm (forall₂_modify kept_refl (fun f => { f with edgeind := o, isordered := true }) m.surfs i fun a ha =>
        ⟨o, true, rfl, fun e => by rw [hfm ha]; exact ⟨h7 e, h8 e⟩⟩) (forall₂_surfind_refl keptV_refl m.volus)
      refine ⟨_, -1, id, { f with edgeind := o, isordered := true }, [], rfl, ⟨r1, r2, ?_, by simp, ?_, Or.inl rfl⟩, by simp⟩
      · simp [modify_eq_set hi, hfe]
      · simp only [List.mem_cons, List.not_mem_nil, or_false, forall_eq]
        exact ⟨trivial, Or.inr ⟨h4, h5⟩⟩
    · rw [if_neg (by decide)]
      generalize hrest : (sortUnique f.edgeind).filter (fun e => !o.contains e) = rest at *
      have hrm : ∀ e, e ∈ rest ↔ e ∈ f.edgeind ∧ e ∉ o := fun e => by
        rw [← hrest, List.mem_filter, mem_sortUnique]
        simp
      have hrn : rest.Nodup := hrest ▸ (nodup_sortUnique f.edgeind).filter _
      have hre : rest ≠ [] := by
        intro h
        have := (hrm e0).2 ⟨he0, he0'⟩
        simp [h] at this
      have hmem : ∀ e, e ∈ f.edgeind ↔ e ∈ o ∨ e ∈ rest := fun e => by
        rw [hrm]
        have := h7 e
        tauto
      have hdis : ∀ e ∈ rest, e ∉ o := fun e he => ((hrm e).1 he).2
      have hw : width f = o.length + rest.length := perm_width h5 hrn hdis hmem
      have ho : 0 < o.length := List.length_pos_iff.2 h6
      have hmax := maxSurf_lt m
      have hN : ∀ g ∈ m.surfs, g.index < maxSurf m + 1 := fun g hg => by have := hmax.2 g hg; omega
      obtain ⟨l, volus, s1, s2, s3⟩ := split_run hm hi hN (r := o) (rest := rest) (by rw [hfe]; exact hmem) hdis hrn
      rw [hfe] at s2 s3
      have t1 := split_sound hm hf hN (by omega) hmem hdis s1 s2
      have t2 := split_by hm hf hN hmem hdis s1 s2
      have hm1s : (splitMesh m f (maxSurf m + 1) o rest l volus).surfs =
          (m.surfs.modify i fun f => { f with edgeind := o }) ++ [{ f with index := maxSurf m + 1, edgeind := l }] := by
        rw [modify_map hm.unique.surfs hi, hfe]
        rfl
      have hwl : width { f with index := maxSurf m + 1, edgeind := l } = rest.length := by
        have := perm_width (l := l) (a := []) (b := rest) (by simp) hrn (by simp) (by simpa using s1)
        simpa [width] using this
      generalize hm1 : splitMesh m f (maxSurf m + 1) o rest l volus = m1 at *
      have hdim1 : m1.meshDim = m.meshDim := t2.dim
      have hat : m1.surfs[m.surfs.length]? = some { f with index := maxSurf m + 1, edgeind := l } := by
        rw [hm1s, List.getElem?_append_right (by simp)]
        simp
      have hrings := splitBy_rings t2 (rings_congr (fun e => (s1 e).symm) h9)
      have hkr : AtMost m1 l (k0 - 1) := atMost_congr t2 (fun e => (s1 e).symm) (atMost_rest hk h4 h6 h5 hmem hdis)
      have hk2 : 2 ≤ k0 := by
        obtain ⟨o', t', -, q2, q3, q4, q5, -⟩ := surf_order ht t1 (splitBy_two t2 h2) (List.mem_of_getElem? hat) hrings (by
          intro h
          have := (s1 _).2 ((hrm e0).2 ⟨he0, he0'⟩)
          simp only at h
          rw [h] at this
          exact List.not_mem_nil this)
        have := hkr [o'] (by simpa using q3) (by simpa using ⟨q4, q2, q5⟩)
        simp only [List.length_cons, List.length_nil] at this
        omega
      rw [if_neg (by omega), if_neg (by unfold width at hw; simp only [hre, h6, or_false]; omega), s3]
      simp only
      obtain ⟨r, k, src, g, new, u1, u2, u3⟩ := ih m1 m.surfs.length (k0 - 1) _ t1 (splitBy_two t2 h2) hat
        hrings (by rw [hwl]; omega) hkr (by rw [hm1s]; simp; omega)
        (by rw [hdim1]; exact hdim)
      rw [u1]
      simp only
      rw [if_neg (by simp)]
      have hr1s : r.surfs = (m.surfs.modify i fun f => { f with edgeind := o }) ++ (g :: new) := by
        rw [u2.surfs, hm1s, List.set_append_right _ _ (by simp)]
        simp
      -- the new surface in `r`
      obtain ⟨hNr, hsrcN⟩ := u2.split.keeps (maxSurf m + 1) ⟨_, List.mem_of_getElem? hat, rfl⟩
      have hNv : ∀ c ∈ f.voluind, SurfVolu r (maxSurf m + 1) c := by
        obtain ⟨a, ha, hai⟩ := hNr
        obtain ⟨b, hb, hbi, hab⟩ := u2.split.comes a ha
        rw [hai, hsrcN] at hbi
        have : b = { f with index := maxSurf m + 1, edgeind := l } :=
          inj_of_nodup t1.unique.surfs hb (List.mem_of_getElem? hat) hbi
        subst this
        exact fun c hc => ⟨a, ha, hai, by rw [hab]; exact hc⟩
      have hfold : ∃ v', (if 2 < m.meshDim then
            if f.voluind.length < 2 then .error .throws
            else (f.voluind.take 2).foldlM (m := Except Fault) (lastVolu (maxSurf m + 1)) r.volus
          else .ok r.volus) = .ok v' ∧ List.Forall₂ KeptV r.volus v' := by
        by_cases hd : 2 < m.meshDim
        · rw [if_pos hd, if_neg (by have := hdim hd; omega)]
          obtain ⟨v', w1, w2⟩ := push_fold (N := maxSurf m + 1) (fun volus c hi hc => lastVolu_ok u2.sound.unique.volus (fun c hc => by
            obtain ⟨x, hx, rfl⟩ := List.mem_map.1 hc
            exact u2.sound.pos.volus _ ⟨x, hx, rfl⟩) hi hc) (f.voluind.take 2) r.volus rfl (fun c hc => by
              by_cases h : c = 0
              · exact Or.inr h
              · obtain ⟨x, hx, rfl⟩ := u2.sound.noDangling.surfVolu _ c (hNv c (List.mem_of_mem_take hc)) h
                exact Or.inl (List.mem_map.2 ⟨x, hx, rfl⟩))
          refine ⟨v', w1, ?_⟩
          have hin : ∀ x ∈ r.volus, x.index ∈ f.voluind.take 2 → maxSurf m + 1 ∈ x.surfind := fun x hx hxi => by
            have hpos := u2.sound.pos.volus _ ⟨x, hx, rfl⟩
            obtain ⟨y, hy, hyi, h⟩ := (FaceFan.sound_sc u2.sound (maxSurf m + 1) x.index).2 ⟨hNv _ (List.mem_of_mem_take hxi), by omega⟩
            rwa [inj_of_nodup u2.sound.unique.volus hy hx hyi] at h
          exact pushed_kept hin w2
        · rw [if_neg hd]
          exact ⟨_, rfl, forall₂_surfind_refl keptV_refl _⟩
      obtain ⟨v', w1, w2⟩ := hfold
      obtain ⟨r1, r2⟩ := retouch u2.sound (forall₂_modify kept_refl (fun f => { f with isordered := true }) r.surfs i fun a _ =>
        ⟨a.edgeind, true, rfl, fun _ => Iff.rfl⟩) w2
      refine ⟨{ r with surfs := r.surfs.modify i (fun f => { f with isordered := true }), volus := v' }, maxSurf m + 1, _,
        { f with edgeind := o, isordered := true }, g :: new, ?_, ⟨r1, splitBy_trans (splitBy_trans t2 u2.split) r2, ?_, ?_, ?_, ?_⟩, ?_⟩
      · rw [w1]
        rfl
      · show r.surfs.modify i _ = _
        have hlt : i < (m.surfs.set i { f with edgeind := o }).length := by simpa using hi
        rw [hr1s, modify_eq_set hi, hfe, modify_eq_set (by simp; omega), List.set_append_left _ _ hlt, List.set_set,
          List.getElem_append_left hlt, List.getElem_set_self]
      · intro a ha
        rw [hfm ha, hw]
        have := u2.few _ hat
        rw [hwl] at this
        simp only [List.length_cons]
        omega
      · intro h hh
        rcases List.mem_cons.1 hh with rfl | hh
        · exact ⟨rfl, Or.inr ⟨h4, h5⟩⟩
        · obtain ⟨j1, j2⟩ := u2.loops h hh
          exact ⟨j1, (splitBy_loop t2).1 j2⟩
      · refine Or.inr ⟨fun a ha => ?_, (r2.keeps _ hNr).1, ?_⟩
        · rw [hfm ha]
          simp only [Function.comp, id]
          rw [hsrcN, if_pos rfl]
        · rintro ⟨a, ha, hai⟩
          have := hN a ha
          omega
      · intro _
        show (r.surfs.modify i _).length ≤ cap
        rw [List.length_modify]
        exact u3 (by rw [hm1s]; simp; omega)

/-! ### All surfaces -/

/-- How many surfaces there can be in the end. -/
def load (surfs : List Surf) : Nat := (surfs.map fun f => if f.isordered then 1 else 1 + width f).sum

theorem length_le_load : ∀ surfs : List Surf, surfs.length ≤ load surfs
  | [] => by simp [load]
  | f :: l => by
    have := length_le_load l
    unfold load at this ⊢
    simp only [List.map_cons, List.sum_cons, List.length_cons]
    by_cases h : f.isordered = true
    · rw [if_pos h]; omega
    · rw [if_neg h]; generalize width f = w; omega

theorem load_set : ∀ {surfs : List Surf} {i : Nat} {f g : Surf}, surfs[i]? = some f → f.isordered = false → g.isordered = true →
    load (surfs.set i g) + width f = load surfs
  | [], _, _, _, h, _, _ => by simp at h
  | a :: l, 0, f, g, h, hf, hg => by
    simp only [List.getElem?_cons_zero, Option.some.injEq] at h
    subst h
    unfold load
    simp [hf, hg]
    omega
  | a :: l, i + 1, f, g, h, hf, hg => by
    have := load_set (surfs := l) (i := i) (by simpa using h) hf hg
    unfold load at this ⊢
    simp only [List.set_cons_succ, List.map_cons, List.sum_cons]
    omega

theorem length_width_le {surfs : List Surf} {i : Nat} {f : Surf} (h : surfs[i]? = some f) (hf : f.isordered = false) :
    surfs.length + width f ≤ load surfs := by
  have h1 := load_set (g := { f with isordered := true }) h hf rfl
  have h2 := length_le_load (surfs.set i { f with isordered := true })
  simp only [List.length_set] at h2
  omega

theorem load_append (a b : List Surf) : load (a ++ b) = load a + load b := by simp [load]

theorem load_ordered : ∀ {l : List Surf}, (∀ f ∈ l, f.isordered = true) → load l = l.length
  | [], _ => rfl
  | f :: l, h => by
    have := load_ordered (l := l) fun g hg => h g (by simp [hg])
    unfold load at this ⊢
    simp [h f (by simp), this]
    omega

theorem width_le (f : Surf) : width f ≤ f.edgeind.length := by
  unfold width
  exact ((nodup_sortUnique f.edgeind).subperm fun e he => mem_sortUnique.1 he).length_le

theorem load_le (m : Mesh) : load m.surfs < passBound m := by
  unfold passBound load
  have key : ∀ l : List Surf, (l.map fun f => if f.isordered then 1 else 1 + width f).sum ≤ l.length + (l.map fun f => f.edgeind.length).sum := by
    intro l
    induction l with
    | nil => simp
    | cons f l ih =>
      have := width_le f
      simp only [List.map_cons, List.sum_cons, List.length_cons]
      by_cases h : f.isordered = true
      · rw [if_pos h]; omega
      · rw [if_neg h]; generalize width f = w at *; omega
  have := key m.surfs
  omega

/-- What holds before each surface of the pass. -/
structure Ready (m : Mesh) : Prop where
  sound : Sound m
  two : TwoVerts m
  rings : ∀ f ∈ m.surfs, f.isordered = false → Rings m f.edgeind
  loops : ∀ f ∈ m.surfs, f.isordered = true → OneLoop m f
  volus : 2 < m.meshDim → ∀ f ∈ m.surfs, f.isordered = false → 2 ≤ f.voluind.length

theorem ready_done {m r : Mesh} (h : Ready m) {i : Nat} {k : Int} {src : Int → Int} {g : Surf} {new : List Surf} (hd : Done m r i k src g new) :
    Ready r := by
  have hcases : ∀ a ∈ r.surfs, a ∈ m.surfs ∨ a ∈ g :: new := by
    intro a ha
    rw [hd.surfs] at ha
    rcases List.mem_append.1 ha with ha | ha
    · rcases List.mem_or_eq_of_mem_set ha with ha | rfl
      · exact Or.inl ha
      · exact Or.inr (by simp)
    · exact Or.inr (by simp [ha])
  refine ⟨hd.sound, splitBy_two hd.split h.two, fun a ha ho => ?_, fun a ha ho => ?_, fun hdim a ha ho => ?_⟩
  · rcases hcases a ha with h1 | h1
    · exact splitBy_rings hd.split (h.rings a h1 ho)
    · rw [(hd.loops a h1).1] at ho
      cases ho
  · rw [splitBy_loop hd.split]
    rcases hcases a ha with h1 | h1
    · exact h.loops a h1 ho
    · exact (hd.loops a h1).2
  · rcases hcases a ha with h1 | h1
    · exact h.volus (hd.split.dim ▸ hdim) a h1 ho
    · rw [(hd.loops a h1).1] at ho
      cases ho

/-- What the pairs say. -/
def PairsOk (m r : Mesh) (src : Int → Int) (pairs : List (Int × Int)) : Prop :=
  ∀ p ∈ pairs, src p.2 = p.1 ∧ HasSurf r p.2 ∧ ¬ HasSurf m p.2

theorem order_pass {tab : List Int → Table} (m0 : Mesh) (cap : Nat) (Inv : Mesh → Prop) (hInv : ∀ m i f, Inv m → m.surfs[i]? = some f → f.isordered = false →
      ∃ r k src g new, orderAt tab (f.edgeind.length + 1) m cap i = .ok (r, cap, k) ∧ Done m r i k src g new ∧ Inv r) : ∀ (n i : Nat) (m : Mesh) (src : Int → Int)
    (pairs : List (Int × Int)), Inv m → SplitBy m0 m src → PairsOk m0 m src pairs →
    (∀ f ∈ m.surfs, f.isordered = false → HasSurf m0 f.index) → i ≤ m.surfs.length →
    load m.surfs < n + i → (∀ j f, j < i → m.surfs[j]? = some f → f.isordered = true) →
    ∃ r src' pairs', orderPass tab n i (m, cap, pairs) = .ok (r, cap, pairs') ∧ Inv r ∧ SplitBy m0 r src' ∧ PairsOk m0 r src' pairs' ∧
      ∀ f ∈ r.surfs, f.isordered = true := by
  intro n
  induction n with
  | zero =>
    intro i m src pairs _ _ _ _ h1 h2
    have := length_le_load m.surfs
    omega
  | succ n ih =>
    intro i m src pairs hm hs hp h0 hi hn ho
    unfold orderPass
    simp only
    rcases hfi : m.surfs[i]? with _ | f
    · refine ⟨m, src, pairs, rfl, hm, hs, hp, fun f hf => ?_⟩
      obtain ⟨j, hj⟩ := List.getElem?_of_mem hf
      have h1 := List.getElem?_eq_none_iff.1 hfi
      have h2 := (List.getElem?_eq_some_iff.1 hj).1
      exact ho j f (by omega) hj
    have hlt := (List.getElem?_eq_some_iff.1 hfi).1
    have hf : f ∈ m.surfs := List.mem_of_getElem? hfi
    simp only
    by_cases hfo : f.isordered = true
    · rw [if_pos hfo]
      refine ih (i + 1) m src pairs hm hs hp h0 (by omega) (by omega) fun j a hj ha => ?_
      rcases Nat.lt_succ_iff_lt_or_eq.1 hj with hj | rfl
      · exact ho j a hj ha
      · rw [hfi] at ha
        rw [← Option.some.inj ha]
        exact hfo
    · have hff : f.isordered = false := by simpa using hfo
      rw [if_neg hfo]
      obtain ⟨r, k, src1, g, new, h1, h2, hinv⟩ := hInv m i f hm hfi hff
      rw [h1]
      have hgo : g.isordered = true := (h2.loops g (by simp)).1
      have hload : load r.surfs ≤ load m.surfs := by
        rw [h2.surfs, load_append, load_ordered (l := new) fun a ha => (h2.loops a (by simp [ha])).1]
        have h3 := load_set hfi hff hgo
        have h4 := h2.few f hfi
        omega
      have hlen : m.surfs.length ≤ r.surfs.length := by rw [h2.surfs]; simp
      have hsrc : ∀ s, HasSurf m s → src1 s = s := fun s hs => (h2.split.keeps s hs).2
      refine ih (i + 1) r (src ∘ src1) _ hinv (splitBy_trans hs h2.split) ?_ ?_ (by omega) (by omega) ?_
      · have hold : PairsOk m0 r (src ∘ src1) pairs := fun p hpp => by
          obtain ⟨q1, q2, q3⟩ := hp p hpp
          refine ⟨?_, (h2.split.keeps _ q2).1, q3⟩
          simp only [Function.comp]
          rw [hsrc _ q2, q1]
        split
        · rename_i hk
          intro p hpp
          rcases List.mem_append.1 hpp with hpp | hpp
          · exact hold p hpp
          · simp only [List.mem_cons, List.not_mem_nil, or_false] at hpp
            subst hpp
            rcases h2.pair with h3 | ⟨h3, h4, h5⟩
            · simp only [h3] at hk
              omega
            · refine ⟨?_, h4, fun h => h5 (hs.keeps _ h).1⟩
              simp only [Function.comp]
              rw [h3 f hfi]
              exact (hs.keeps _ (h0 f hf hff)).2
        · exact hold
      · intro a ha hao
        rw [h2.surfs] at ha
        rcases List.mem_append.1 ha with ha | ha
        · rcases List.mem_or_eq_of_mem_set ha with ha | rfl
          · exact h0 a ha hao
          · rw [hgo] at hao
            cases hao
        · rw [(h2.loops a (by simp [ha])).1] at hao
          cases hao
      · intro j a hj ha
        rw [h2.surfs, List.getElem?_append_left (by simp; omega), List.getElem?_set] at ha
        split at ha
        · simp only [Option.some.injEq] at ha
          exact ha ▸ hgo
        · exact ho j a (by omega) ha

theorem splitBy_refl {m : Mesh} (hm : Sound m) : SplitBy m m id :=
  (retouch hm (forall₂_surfind_refl kept_refl _) (forall₂_surfind_refl keptV_refl _)).2

theorem load_done {m r : Mesh} {i : Nat} {f : Surf} {k : Int} {src : Int → Int} {g : Surf} {new : List Surf} (hfi : m.surfs[i]? = some f)
    (hff : f.isordered = false) (h2 : Done m r i k src g new) : load r.surfs ≤ load m.surfs := by
  rw [h2.surfs, load_append, load_ordered (l := new) fun a ha => (h2.loops a (by simp [ha])).1]
  have h3 := load_set hfi hff (h2.loops g (by simp)).1
  have h4 := h2.few f hfi
  omega

theorem order_all {tab : List Int → Table} {m : Mesh} {cap : Nat} (hsound : Sound m) (Inv : Mesh → Prop)
    (hInv : ∀ m i f, Inv m → m.surfs[i]? = some f → f.isordered = false →
      ∃ r k src g new, orderAt tab (f.edgeind.length + 1) m cap i = .ok (r, cap, k) ∧ Done m r i k src g new ∧ Inv r) (hm : Inv m) :
    ∃ r src pairs, orderEdges tab m cap = .ok (r, cap, pairs) ∧ Inv r ∧ SplitBy m r src ∧ PairsOk m r src pairs ∧
      ∀ f ∈ r.surfs, f.isordered = true := by
  unfold orderEdges
  by_cases h0 : m.surfs = []
  · rw [if_pos h0]
    exact ⟨m, id, [], rfl, hm, splitBy_refl hsound, by simp [PairsOk], by simp [h0]⟩
  rw [if_neg h0]
  obtain ⟨r, src, pairs, h1, h2, h3, h4, h5⟩ := order_pass m cap Inv hInv (passBound m) 0 m id [] hm (splitBy_refl hsound)
    (by simp [PairsOk]) (fun f hf _ => ⟨f, hf, rfl⟩) (by omega) (by simpa using load_le m) (by omega)
  have hpass : ∃ n, 2 * passBound m = n + 1 := ⟨2 * passBound m - 1, by have := load_le m; omega⟩
  obtain ⟨n, hn⟩ := hpass
  rw [hn]
  unfold orderPasses
  rw [h1]
  simp only [Except.bind]
  rw [if_neg (by simp)]
  simp only
  rw [if_pos (by simpa using h5)]
  exact ⟨r, src, pairs, rfl, h2, h3, h4, h5⟩

theorem order_edges {tab : List Int → Table} (ht : ∀ l, IsTable l (tab l)) {m : Mesh} (hm : Ready m) {cap : Nat} (hc : load m.surfs ≤ cap) :
    ∃ r src pairs, orderEdges tab m cap = .ok (r, cap, pairs) ∧ Sound r ∧ SplitBy m r src ∧ PairsOk m r src pairs ∧
      ∀ f ∈ r.surfs, f.isordered = true ∧ OneLoop m f := by
  obtain ⟨r, src, pairs, h1, ⟨h2, -⟩, h3, h4, h5⟩ := order_all hm.sound (fun m => Ready m ∧ load m.surfs ≤ cap) (tab := tab) (cap := cap)
    (fun m i f ⟨hm, hc⟩ hfi hff => by
      have hf : f ∈ m.surfs := List.mem_of_getElem? hfi
      obtain ⟨r, k, src1, g, new, h1, h2, -⟩ := order_at ht cap (f.edgeind.length + 1) m i _ f hm.sound hm.two hfi (hm.rings f hf hff)
        (by have := width_le f; omega) (atMost_width m f) (by have := length_width_le hfi hff; omega) fun hd => hm.volus hd f hf hff
      exact ⟨r, k, src1, g, new, h1, h2, ready_done hm h2, by have := load_done hfi hff h2; omega⟩) ⟨hm, hc⟩
  exact ⟨r, src, pairs, h1, h2.sound, h3, h4, fun f hf => ⟨h5 f hf, (splitBy_loop h3).1 (h2.loops f hf (h5 f hf))⟩⟩

/-! ### Surfaces of one loop -/

/-- The edges can be arranged in a loop. -/
def CanLoop (m : Mesh) (f : Surf) : Prop := f.edgeind = [] ∨ ∃ r, r.Perm (sortUnique f.edgeind) ∧ IsLoop (EdgeJoins m) r

structure Single (idx : List Int) (m : Mesh) : Prop where
  sound : Sound m
  two : TwoVerts m
  inds : m.surfs.map Surf.index = idx
  can : ∀ f ∈ m.surfs, f.isordered = false → CanLoop m f
  loops : ∀ f ∈ m.surfs, f.isordered = true → OneLoop m f

theorem single_at {tab : List Int → Table} (ht : ∀ l, IsTable l (tab l)) (cap n : Nat) {idx : List Int} {m : Mesh} {i : Nat} {f : Surf}
    (hm : Single idx m) (hfi : m.surfs[i]? = some f) (hff : f.isordered = false) :
    ∃ r k src g new, orderAt tab (n + 1) m cap i = .ok (r, cap, k) ∧ Done m r i k src g new ∧ Single idx r := by
  obtain ⟨hi, hfe⟩ := List.getElem?_eq_some_iff.1 hfi
  have hf : f ∈ m.surfs := hfe ▸ List.getElem_mem _
  have helem : elemAt m.surfs (i : Int) = .ok f := by
    unfold elemAt
    simp [hfi]
  have hfm : ∀ {a : Surf}, m.surfs[i]? = some a → a = f := fun h => by rw [hfi] at h; exact (Option.some.inj h).symm
  have key : ∀ o, OneLoop m { f with edgeind := o, isordered := true } → (∀ e, e ∈ o ↔ e ∈ f.edgeind) →
      orderAt tab (n + 1) m cap i = .ok ({ m with surfs := m.surfs.modify i fun f => { f with edgeind := o, isordered := true } }, cap, -1) →
      ∃ r k src g new, orderAt tab (n + 1) m cap i = .ok (r, cap, k) ∧ Done m r i k src g new ∧ Single idx r := by
    intro o ho hoe hrun
    have hkept := forall₂_modify kept_refl (fun f => { f with edgeind := o, isordered := true }) m.surfs i fun a ha =>
        ⟨o, true, rfl, fun e => by rw [hfm ha]; exact hoe e⟩
    obtain ⟨r1, r2⟩ := retouch hm.sound hkept (forall₂_surfind_refl keptV_refl m.volus)
    have hset : (m.surfs.modify i fun f => { f with edgeind := o, isordered := true }) = m.surfs.set i { f with edgeind := o, isordered := true } := by
      rw [modify_eq_set hi, hfe]
    have hcases : ∀ a ∈ m.surfs.modify i (fun f => { f with edgeind := o, isordered := true }), a ∈ m.surfs ∨
        a = { f with edgeind := o, isordered := true } := fun a ha => by
      rw [hset] at ha
      exact List.mem_or_eq_of_mem_set ha
    refine ⟨_, -1, id, { f with edgeind := o, isordered := true }, [], hrun, ⟨r1, r2, ?_, by simp, ?_, Or.inl rfl⟩,
      ⟨r1, splitBy_two r2 hm.two, ?_, ?_, ?_⟩⟩
    · rw [List.append_nil]
      exact hset
    · simp only [List.mem_cons, List.not_mem_nil, or_false, forall_eq]
      exact ⟨trivial, ho⟩
    · rw [← hm.inds]
      exact forall₂_field (by rintro a b ⟨l, o, rfl, -⟩; rfl) hkept
    · intro a ha hao
      rcases hcases a ha with h | rfl
      · exact hm.can a h hao
      · cases hao
    · intro a ha hao
      rcases hcases a ha with h | rfl
      · exact hm.loops a h hao
      · exact ho
  rcases hm.can f hf hff with hne | hl
  · refine key [] (Or.inl rfl) (by simp [hne]) ?_
    unfold orderAt
    rw [helem]
    simp only [Except.bind]
    rw [if_pos hne, modify_eq_set hi, modify_eq_set hi, hfe, hne]
  · by_cases hne : f.edgeind = []
    · refine key [] (Or.inl rfl) (by simp [hne]) ?_
      unfold orderAt
      rw [helem]
      simp only [Except.bind]
      rw [if_pos hne, modify_eq_set hi, modify_eq_set hi, hfe, hne]
    · obtain ⟨o, h1, h2, h3, h4⟩ := Props.C23_surface tab ht m hm.sound hm.two f hf hl
      refine key o (Or.inr ⟨h2, h3⟩) h4 ?_
      unfold orderAt
      rw [helem]
      simp only [Except.bind]
      rw [if_neg hne, h1]
      simp only
      rw [if_pos (by decide)]

theorem order_single {tab : List Int → Table} (ht : ∀ l, IsTable l (tab l)) {m : Mesh} (cap : Nat) (hm : Single (m.surfs.map Surf.index) m) :
    ∃ r, orderEdges tab m cap = .ok (r, cap, []) ∧ Sound r ∧ SplitBy m r id ∧ r.surfs.map Surf.index = m.surfs.map Surf.index ∧
      ∀ f ∈ r.surfs, f.isordered = true ∧ OneLoop m f := by
  obtain ⟨r, src, pairs, h1, h2, h3, h4, h5⟩ := order_all (tab := tab) (cap := cap) hm.sound (Single (m.surfs.map Surf.index))
    (fun m i f hm hfi hff => single_at ht cap _ hm hfi hff) hm
  have hhas : ∀ s, HasSurf r s → HasSurf m s := by
    rintro s ⟨g, hg, rfl⟩
    have : g.index ∈ m.surfs.map Surf.index := h2.inds ▸ List.mem_map.2 ⟨g, hg, rfl⟩
    obtain ⟨f, hf, hfi⟩ := List.mem_map.1 this
    exact ⟨f, hf, hfi⟩
  have hp : pairs = [] := by
    by_contra hne
    obtain ⟨p, hp⟩ := List.exists_mem_of_ne_nil _ hne
    obtain ⟨-, q2, q3⟩ := h4 p hp
    exact q3 (hhas _ q2)
  subst hp
  have hsrc : ∀ g ∈ r.surfs, src g.index = g.index := fun g hg => (h3.keeps _ (hhas _ ⟨g, hg, rfl⟩)).2
  refine ⟨r, h1, h2.sound, ⟨h3.verts, h3.edges, h3.volus, h3.dim, fun s hs => ⟨(h3.keeps s hs).1, rfl⟩, ?_, ?_, ?_⟩, h2.inds,
    fun f hf => ⟨h5 f hf, (splitBy_loop h3).1 (h2.loops f hf (h5 f hf))⟩⟩
  · intro g hg
    obtain ⟨f, hf, hfi, hfg⟩ := h3.comes g hg
    exact ⟨f, hf, hfi.trans (hsrc g hg), hfg⟩
  · intro f hf e
    rw [h3.shares f hf e]
    constructor
    · rintro ⟨g, hg, h, he⟩
      exact ⟨g, hg, (hsrc g hg).symm.trans h, he⟩
    · rintro ⟨g, hg, h, he⟩
      exact ⟨g, hg, (hsrc g hg).trans h, he⟩
  · intro g hg h hh hgh
    exact h3.once g hg h hh (by rw [hsrc g hg, hsrc h hh]; exact hgh)

end RSVS.SplitSurf
