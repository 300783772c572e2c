import Verif.Spec.Spawn
import Verif.Lemmas.Refine
import Verif.Lemmas.MeshDetach
import Verif.Lemmas.Order

/-!
# Lemmas about the snake spawned around a vertex
-/

namespace RSVS.Spawn

open RSVS.Spec RSVS.Mesh

variable {K : Type}

/-- Number `x` of the list, counted from 1, is `a`. -/
def Nth (l : List Int) (x a : Int) : Prop := ∃ i : Nat, l[i]? = some a ∧ x = i + 1

theorem Nth.mem {l : List Int} {x a : Int} (h : Nth l x a) : a ∈ l := by
  obtain ⟨i, h, -⟩ := h; exact List.mem_of_getElem? h

theorem Nth.fun {l : List Int} {x a b : Int} (h : Nth l x a) (h' : Nth l x b) : a = b := by
  obtain ⟨i, h, rfl⟩ := h; obtain ⟨j, h', e⟩ := h'
  have : i = j := by omega
  subst this; rw [h] at h'; cases h'; rfl

theorem Nth.inj {l : List Int} (hn : l.Nodup) {x y a : Int} (h : Nth l x a) (h' : Nth l y a) : x = y := by
  obtain ⟨i, h, rfl⟩ := h; obtain ⟨j, h', rfl⟩ := h'
  obtain ⟨hi, hi'⟩ := List.getElem?_eq_some_iff.mp h
  obtain ⟨hj, hj'⟩ := List.getElem?_eq_some_iff.mp h'
  rw [(hn.getElem_inj_iff (hi := hi) (hj := hj)).mp (hi'.trans hj'.symm)]

theorem Nth.pos {l : List Int} {x a : Int} (h : Nth l x a) : 0 < x := by obtain ⟨i, -, rfl⟩ := h; omega

theorem Nth.of_mem {l : List Int} {a : Int} (h : a ∈ l) : ∃ x, Nth l x a := by
  obtain ⟨i, hi, rfl⟩ := List.getElem_of_mem h
  exact ⟨i + 1, i, List.getElem?_eq_getElem hi, rfl⟩

theorem posOf_nth {l : List Int} (a : Int) : (posOf id l a = -1 ∧ a ∉ l) ∨ (0 ≤ posOf id l a ∧ Nth l (posOf id l a + 1) a) := by
  rcases posOf_cases (ix := id) l a with ⟨h, h1⟩ | ⟨p, h, hp, h1⟩
  · exact .inl ⟨h, fun ha => h1 a ha rfl⟩
  · exact .inr ⟨by omega, p, by rw [List.getElem?_eq_getElem hp]; exact congrArg some h1, by rw [h]⟩

theorem mem_subs {l F : List Int} (hn : F.Nodup) (hl : ∀ a ∈ l, a ∈ F) {y : Int} :
    y ∈ (subsIn l F).map (· + 1) ↔ ∃ f ∈ l, Nth F y f := by
  simp only [subsIn, List.map_map, List.mem_map, Function.comp]
  constructor
  · rintro ⟨f, hf, rfl⟩
    rcases posOf_nth (l := F) f with ⟨_, h⟩ | ⟨_, h⟩
    · exact absurd (hl f hf) h
    · exact ⟨f, hf, h⟩
  · rintro ⟨f, hf, h⟩
    rcases posOf_nth (l := F) f with ⟨_, h'⟩ | ⟨_, h'⟩
    · exact absurd (hl f hf) h'
    · exact ⟨f, hf, h'.inj hn h⟩

theorem mem_subs_filter {l F : List Int} (hn : F.Nodup) {y : Int} :
    y ∈ ((subsIn l F).filter (· ≥ 0)).map (· + 1) ↔ ∃ f ∈ l, Nth F y f := by
  simp only [subsIn, List.mem_map, List.mem_filter, decide_eq_true_eq]
  constructor
  · rintro ⟨p, ⟨⟨f, hf, rfl⟩, hp⟩, rfl⟩
    rcases posOf_nth (l := F) f with ⟨h, _⟩ | ⟨_, h⟩
    · omega
    · exact ⟨f, hf, h⟩
  · rintro ⟨f, hf, h⟩
    rcases posOf_nth (l := F) f with ⟨_, h'⟩ | ⟨hp, h'⟩
    · exact absurd h.mem h'
    · exact ⟨_, ⟨⟨f, hf, rfl⟩, hp⟩, h'.inj hn h⟩

theorem length_subs_filter {l F : List Int} :
    ((subsIn l F).filter (· ≥ 0)).length = (l.filter fun e => decide (e ∈ F)).length := by
  rw [subsIn, List.filter_map, List.length_map]
  congr 1
  apply List.filter_congr
  intro a _
  rcases posOf_nth (l := F) a with ⟨h, h'⟩ | ⟨h, h'⟩
  · simp [h, h']
  · simp [h, h'.mem]

theorem zip_mapM_from {α β : Type} {f : α → Nat → Res β} {P : α → Nat → β → Prop} : ∀ {l : List α} (k : Nat),
    (∀ (i : Nat) (a : α), l[i]? = some a → ∃ b, f a (k + i) = .ok b ∧ P a (k + i) b) →
    ∃ r : List β, (l.zipIdx k).mapM (m := Except Fault) (fun x => f x.1 x.2) = .ok r ∧ r.length = l.length ∧
      ∀ (i : Nat) (a : α), l[i]? = some a → ∃ b, r[i]? = some b ∧ P a (k + i) b
  | [], _, _ => ⟨[], rfl, rfl, by simp⟩
  | a :: l, k, h => by
    obtain ⟨b, hb, hp⟩ := h 0 a rfl
    obtain ⟨r, hr, hl, hr'⟩ := zip_mapM_from (f := f) (P := P) (l := l) (k + 1) fun i x hx => by
      have := h (i + 1) x hx
      rwa [show k + (i + 1) = k + 1 + i by omega] at this
    refine ⟨b :: r, ?_, by simp [hl], ?_⟩
    · rw [List.zipIdx_cons, List.mapM_cons]
      simp only [Nat.add_zero] at hb
      simp only [hb, hr]
      rfl
    · intro i x hx
      match i with
      | 0 => cases hx; exact ⟨b, rfl, hp⟩
      | i + 1 =>
        obtain ⟨c, hc, hpc⟩ := hr' i x hx
        exact ⟨c, hc, by rwa [show k + (i + 1) = k + 1 + i by omega]⟩

theorem zip_mapM {α β : Type} {f : α → Nat → Res β} {P : α → Nat → β → Prop} {l : List α}
    (h : ∀ (i : Nat) (a : α), l[i]? = some a → ∃ b, f a i = .ok b ∧ P a i b) :
    ∃ r : List β, l.zipIdx.mapM (m := Except Fault) (fun x => f x.1 x.2) = .ok r ∧ r.length = l.length ∧
      ∀ (i : Nat) (a : α), l[i]? = some a → ∃ b, r[i]? = some b ∧ P a i b := by
  simpa using zip_mapM_from (f := f) (P := P) (l := l) 0 (by simpa using h)

/-- Elements of a list made of another one, number by number. -/
def Each {α : Type} (l : List Int) (r : List α) (P : Int → Int → α → Prop) : Prop :=
  r.length = l.length ∧ ∀ (i : Nat) (a : Int), l[i]? = some a → ∃ b, r[i]? = some b ∧ P a (i + 1) b

theorem Each.mem {α : Type} {l : List Int} {r : List α} {P : Int → Int → α → Prop} (h : Each l r P) {b : α} (hb : b ∈ r) :
    ∃ a x, Nth l x a ∧ P a x b := by
  obtain ⟨i, hi, rfl⟩ := List.getElem_of_mem hb
  obtain ⟨b, hb, hp⟩ := h.2 i (l[i]'(h.1 ▸ hi)) (List.getElem?_eq_getElem _)
  rw [List.getElem?_eq_getElem hi] at hb
  cases hb
  exact ⟨_, _, ⟨i, List.getElem?_eq_getElem _, rfl⟩, hp⟩

theorem Each.nth {α : Type} {l : List Int} {r : List α} {P : Int → Int → α → Prop} (h : Each l r P) {a x : Int}
    (hx : Nth l x a) : ∃ b ∈ r, P a x b := by
  obtain ⟨i, hi, rfl⟩ := hx
  obtain ⟨b, hb, hp⟩ := h.2 i a hi
  exact ⟨b, List.mem_of_getElem? hb, hp⟩

theorem Each.map {α β : Type} {l : List Int} {r : List α} {P : Int → Int → α → Prop} {Q : Int → Int → β → Prop} (g : α → β)
    (h : Each l r P) (hq : ∀ a x b, P a x b → Q a x (g b)) : Each l (r.map g) Q := by
  refine ⟨by simp [h.1], fun i a ha => ?_⟩
  obtain ⟨b, hb, hp⟩ := h.2 i a ha
  exact ⟨g b, by simp [hb], hq _ _ _ hp⟩

/-- A field that gives the number. -/
theorem Each.index {α : Type} {l : List Int} {r : List α} {P : Int → Int → α → Prop} {ix : α → Int} (h : Each l r P)
    (hi : ∀ a x b, P a x b → ix b = x) : r.map ix = (List.range l.length).map fun k : Nat => (k : Int) + 1 := by
  apply List.ext_getElem?
  intro i
  simp only [List.getElem?_map]
  by_cases hl : i < l.length
  · obtain ⟨b, hb, hp⟩ := h.2 i _ (List.getElem?_eq_getElem hl)
    rw [hb, List.getElem?_range hl]
    simp [hi _ _ _ hp]
  · rw [List.getElem?_eq_none (by rw [h.1]; omega), List.getElem?_eq_none (by simp; omega)]
    rfl

/-- A field that gives the element. -/
theorem Each.field {α : Type} {l : List Int} {r : List α} {P : Int → Int → α → Prop} {fld : α → Int} (h : Each l r P)
    (hi : ∀ a x b, P a x b → fld b = a) : r.map fld = l := by
  apply List.ext_getElem?
  intro i
  simp only [List.getElem?_map]
  by_cases hl : i < l.length
  · obtain ⟨b, hb, hp⟩ := h.2 i _ (List.getElem?_eq_getElem hl)
    rw [hb, List.getElem?_eq_getElem hl]
    simp [hi _ _ _ hp]
  · rw [List.getElem?_eq_none (by rw [h.1]; omega), List.getElem?_eq_none (by omega)]
    rfl

theorem nodup_numbers (n : Nat) : ((List.range n).map fun k : Nat => (k : Int) + 1).Nodup :=
  (List.nodup_range).map fun a b h => by simpa using h

theorem mem_numbers {l : List Int} {x : Int} : x ∈ ((List.range l.length).map fun k : Nat => (k : Int) + 1) ↔ ∃ a, Nth l x a := by
  simp only [List.mem_map, List.mem_range]
  constructor
  · rintro ⟨k, hk, rfl⟩; exact ⟨_, k, List.getElem?_eq_getElem hk, rfl⟩
  · rintro ⟨a, k, hk, rfl⟩; exact ⟨k, (List.getElem?_eq_some_iff.mp hk).1, rfl⟩

theorem isearch_ok {α : Type} {ix : α → Int} {l : List α} {k : Int} (h : ∃ a ∈ l, ix a = k) :
    ∃ a, isearch ix l k = .ok a ∧ a ∈ l ∧ ix a = k := elemAt_posOf_ok h

/-- What is made for an edge of the vertex. -/
def VertOf [Field K] (m : Mesh) (y : Vert) (F : List Int) (e x : Int) (r : Snax K × Vert) : Prop :=
  ∃ ed ∈ m.edges, ed.index = e ∧ r.1.index = x ∧ r.1.d = 0 ∧ r.1.v = 1 / 2 ∧ r.1.fromvert = y.index ∧ r.1.edgeind = e ∧
    (ed.vertind = [y.index, r.1.tovert] ∨ ed.vertind = [r.1.tovert, y.index]) ∧
    r.2.index = x ∧ r.2.coord = y.coord ∧ r.2.edgeind = (subsIn ed.surfind F).map (· + 1)

theorem spawnVert_ok [Field K] {m : Mesh} {y : Vert} {F : List Int} {e : Int} (h2 : TwoVerts m)
    (he : EdgeVert m e y.index) (hu : (m.edges.map Edge.index).Nodup) (i : Nat) :
    ∃ r, spawnVert (K := K) m y.index y.coord F e i = .ok r ∧ VertOf m y F e (i + 1) r := by
  obtain ⟨ed', hed', he', hv⟩ := he
  obtain ⟨ed, hi, hed, hx⟩ := isearch_ok (ix := Edge.index) ⟨ed', hed', he'⟩
  have : ed' = ed := inj_of_nodup hu hed' hed (he'.trans hx.symm)
  subst this
  have hlen := h2 ed' hed
  match hvi : ed'.vertind, hlen with
  | [a, b], _ =>
    rw [hvi] at hv
    unfold spawnVert
    simp only [hi, Except.bind, hvi, show vecGet [a, b] 0 = .ok a from rfl]
    by_cases ha : a = y.index
    · subst ha
      rw [if_pos rfl]
      exact ⟨_, rfl, ed', hed, hx, rfl, rfl, rfl, rfl, rfl, .inl hvi, rfl, rfl, rfl⟩
    · rw [if_neg ha]
      have hb : y.index = b := by
        rcases List.mem_cons.mp hv with h | h
        · exact absurd h.symm ha
        · simpa using h
      exact ⟨_, rfl, ed', hed, hx, rfl, rfl, rfl, rfl, rfl, .inr (by rw [hvi, hb]), rfl, rfl, rfl⟩

/-- What is made for a surface of the vertex. -/
def EdgeOf (m : Mesh) (E C : List Int) (is3D : Bool) (f x : Int) (r : SnaxEdge × Edge) : Prop :=
  ∃ sf ∈ m.surfs, sf.index = f ∧ r.1.index = x ∧ r.1.surfind = f ∧ r.2.index = x ∧
    r.2.vertind = ((subsIn sf.edgeind E).filter (· ≥ 0)).map (· + 1) ∧ r.2.vertind.length = 2 ∧
    r.2.surfind = if is3D then (subsIn sf.voluind C).map (· + 1) else [1, 0]

theorem spawnEdge_ok {m : Mesh} {E C : List Int} {is3D : Bool} {f : Int} (hf : HasSurf m f)
    (h2 : ∀ x ∈ m.surfs, x.index = f → (x.edgeind.filter fun e => decide (e ∈ E)).length = 2) (i : Nat) :
    ∃ r, spawnEdge m E C is3D f i = .ok r ∧ EdgeOf m E C is3D f (i + 1) r := by
  obtain ⟨sf, hi, hsf, rfl⟩ := isearch_ok (ix := Surf.index) hf
  have hl : ((subsIn sf.edgeind E).filter (· ≥ 0)).length = 2 := length_subs_filter.trans (h2 sf hsf rfl)
  unfold spawnEdge
  have he : spawnEnds ((subsIn sf.edgeind E).filter (· ≥ 0)) = .ok ((subsIn sf.edgeind E).filter (· ≥ 0)) := by
    unfold spawnEnds
    rw [if_pos (by rw [hl]), hl]
    simp
  rw [hi]
  simp only [Except.bind, he]
  exact ⟨_, rfl, sf, hsf, rfl, rfl, rfl, rfl, rfl, by simpa using hl, rfl⟩

/-- What is made for a volume of the vertex. -/
def SurfOf (m : Mesh) (F : List Int) (c x : Int) (r : SnaxSurf × Surf) : Prop :=
  ∃ vo ∈ m.volus, vo.index = c ∧ r.1.index = x ∧ r.1.voluind = c ∧ r.2.index = x ∧
    r.2.edgeind = ((subsIn vo.surfind F).filter (· ≥ 0)).map (· + 1) ∧ r.2.voluind = [1, 0]

theorem spawnSurf_ok {m : Mesh} {F : List Int} {c : Int} (hc : HasVolu m c) (i : Nat) :
    ∃ r, spawnSurf m F c i = .ok r ∧ SurfOf m F c (i + 1) r := by
  obtain ⟨vo, hi, hvo, rfl⟩ := isearch_ok (ix := Volu.index) hc
  unfold spawnSurf
  simp only [hi]
  exact ⟨_, rfl, vo, hvo, rfl, rfl, rfl, rfl, rfl, rfl⟩

/-- The parts of the new snake that are made in the plane and in space alike. -/
structure Front [Field K] (m : Mesh) (v : Int) (y : Vert) (fs cs F C : List Int) (sv : List (Snax K × Vert))
    (se : List (SnaxEdge × Edge)) : Prop where
  mem : y ∈ m.verts
  index : y.index = v
  find : elemAt m.verts (posOf Vert.index m.verts v) = .ok y
  readF : concatField m.edges Edge.surfind (posList Edge.index m.edges y.edgeind) = .ok fs
  eqF : F = sortUnique fs
  readC : concatField m.surfs Surf.voluind (posList Surf.index m.surfs F) = .ok cs
  eqC : C = sortUnique cs
  memF : ∀ f, f ∈ F ↔ SurfAt m v f
  memC : ∀ c, c ∈ C ↔ VoluAt m v c
  verts : y.edgeind.zipIdx.mapM (m := Except Fault) (fun x => spawnVert (K := K) m v y.coord F x.1 x.2) = .ok sv
  edges : F.zipIdx.mapM (m := Except Fault) (fun x => spawnEdge m y.edgeind C (decide (m.volus.length > 0)) x.1 x.2) = .ok se
  eachV : Each y.edgeind sv (VertOf m y F)
  eachE : Each F se (EdgeOf m y.edgeind C (decide (m.volus.length > 0)))

theorem front [Field K] {m : Mesh} {v : Int} (hs : Sound m) (h2 : TwoVerts m) (hv : HasVert m v) (hr : Ringed m v) :
    ∃ y fs cs F C sv se, Front (K := K) m v y fs cs F C sv se := by
  obtain ⟨y, hy, hym, rfl⟩ := elemAt_posOf_ok (ix := Vert.index) hv
  have hE : ∀ e ∈ y.edgeind, HasEdge m e ∧ EdgeVert m e y.index := by
    intro e he
    have h : VertEdge m y.index e := ⟨y, hym, rfl, he⟩
    have hz : e ≠ 0 := by rintro rfl; exact hs.zeroOutside.vertEdge _ h
    have h' := hs.noDangling.vertEdge _ _ h hz
    exact ⟨h', (hs.sym.vertEdge _ _ hv h').mp h⟩
  have hVE : ∀ e, VertEdge m y.index e ↔ e ∈ y.edgeind := by
    intro e
    constructor
    · rintro ⟨y', hy', h, he⟩
      rwa [inj_of_nodup hs.unique.verts hy' hym h] at he
    · intro he; exact ⟨y, hym, rfl, he⟩
  obtain ⟨fs, hfs, hfs'⟩ := Refine.concatField_ok (ix := Edge.index) (field := Edge.surfind) (fun e he => (hE e he).1)
    hs.unique.edges
  have hF : ∀ f, f ∈ sortUnique fs ↔ SurfAt m y.index f := by
    intro f
    rw [mem_sortUnique, hfs']
    constructor
    · rintro ⟨ed, hed, h1, h2⟩; exact ⟨ed.index, (hVE _).mpr h1, ed, hed, rfl, h2⟩
    · rintro ⟨e, he, ed, hed, rfl, h⟩; exact ⟨ed, hed, (hVE _).mp he, h⟩
  have hFs : ∀ f ∈ sortUnique fs, HasSurf m f := by
    intro f hf
    have h := (hF f).mp hf
    have hz : f ≠ 0 := by rintro rfl; exact hr.surf h
    obtain ⟨e, -, he⟩ := h
    exact hs.noDangling.edgeSurf _ _ he hz
  obtain ⟨cs, hcs, hcs'⟩ := Refine.concatField_ok (ix := Surf.index) (field := Surf.voluind) hFs hs.unique.surfs
  have hC : ∀ c, c ∈ sortUnique cs ↔ VoluAt m y.index c := by
    intro c
    rw [mem_sortUnique, hcs']
    constructor
    · rintro ⟨sf, hsf, h1, h2⟩; exact ⟨sf.index, (hF _).mp h1, sf, hsf, rfl, h2⟩
    · rintro ⟨f, hf, sf, hsf, rfl, h⟩; exact ⟨sf, hsf, (hF _).mpr hf, h⟩
  obtain ⟨sv, hsv, hsv'⟩ := zip_mapM (f := fun e i => spawnVert (K := K) m y.index y.coord (sortUnique fs) e i)
    (P := fun e i r => VertOf m y (sortUnique fs) e (i + 1) r) (l := y.edgeind)
    fun i e he => spawnVert_ok h2 (hE e (List.mem_of_getElem? he)).2 hs.unique.edges i
  obtain ⟨se, hse, hse'⟩ := zip_mapM
    (f := fun f i => spawnEdge m y.edgeind (sortUnique cs) (decide (m.volus.length > 0)) f i)
    (P := fun f i r => EdgeOf m y.edgeind (sortUnique cs) (decide (m.volus.length > 0)) f (i + 1) r) (l := sortUnique fs)
    fun i f hf => spawnEdge_ok (hFs f (List.mem_of_getElem? hf))
      (by rintro x hx rfl; exact hr.two y hym rfl x hx ((hF _).mp (List.mem_of_getElem? hf))) i
  exact ⟨y, fs, cs, _, _, sv, se, hym, rfl, hy, hfs, rfl, hcs, rfl, hF, hC, hsv, hse, hsv', hse'⟩

/-- The new snake is made of these parts. -/
def assembled [Field K] (m : Mesh) (base : Nat) (v : Int) (sv : List (Snax K × Vert)) (se : List (SnaxEdge × Edge))
    (sf : List (SnaxSurf × Surf)) (volus : List Volu) : Snake K :=
  { snaxs := sv.map Prod.fst, snaxedges := se.map Prod.fst, snaxsurfs := sf.map Prod.fst
    conn := { verts := sv.map Prod.snd, edges := se.map Prod.snd, surfs := sf.map Prod.snd, volus := volus }
    base := base
    vertIn := (List.replicate m.verts.length false).set (posOf Vert.index m.verts v).toNat true
    flipped := false }

theorem spawnNew_space [Field K] {m : Mesh} {v : Int} {y : Vert} {fs cs F C : List Int} {sv : List (Snax K × Vert)}
    {se : List (SnaxEdge × Edge)} (h : Front m v y fs cs F C sv se) (base : Nat) (h3 : m.volus ≠ [])
    {sf : List (SnaxSurf × Surf)}
    (hsf : C.zipIdx.mapM (m := Except Fault) (fun x => spawnSurf m F x.1 x.2) = .ok sf) :
    spawnNew m base v = .ok (assembled m base v sv se sf
      [{ index := 1, surfind := (List.range C.length).map fun k : Nat => (k : Int) + 1 }]) := by
  have hl : decide (m.volus.length > 0) = true := by simpa [List.length_pos_iff] using h3
  have hv := h.verts; have he := h.edges
  rw [hl] at he
  have hF := h.eqF; have hC := h.eqC; have hc := h.readC
  unfold spawnNew
  rw [h.find]; simp only [Except.bind]
  rw [h.readF]; simp only
  rw [← hF, hc]; simp only
  rw [← hC, hv]; simp only
  rw [hl, he]; simp only [if_true]
  rw [hsf]
  rfl

theorem spawnNew_plane [Field K] {m : Mesh} {v : Int} {y : Vert} {fs cs F C : List Int} {sv : List (Snax K × Vert)}
    {se : List (SnaxEdge × Edge)} (h : Front m v y fs cs F C sv se) (base : Nat) (h3 : m.volus = []) (hne : C ≠ []) :
    spawnNew m base v = .ok (assembled m base v sv se (C.zipIdx.map fun x => spawnSurf2D F.length x.1 x.2) []) := by
  have hl : decide (m.volus.length > 0) = false := by simp [h3]
  have hv := h.verts; have he := h.edges
  rw [hl] at he
  have hF := h.eqF; have hC := h.eqC; have hc := h.readC
  unfold spawnNew
  rw [h.find]; simp only [Except.bind]
  rw [h.readF]; simp only
  rw [← hF, hc]; simp only
  rw [← hC, hv]; simp only
  rw [hl, he]; simp only [Bool.false_eq_true, if_false]
  rw [if_neg hne]
  rfl

section Relations

variable [Field K] {m : Mesh} {v : Int} {y : Vert} {fs cs F C : List Int} {sv : List (Snax K × Vert)}
  {se : List (SnaxEdge × Edge)} {base : Nat} {sf : List (SnaxSurf × Surf)} {vs : List Volu}

theorem Front.nodupF (h : Front m v y fs cs F C sv se) : F.Nodup := by rw [h.eqF]; exact Order.nodup_sortUnique _

theorem Front.nodupC (h : Front m v y fs cs F C sv se) : C.Nodup := by rw [h.eqC]; exact Order.nodup_sortUnique _

theorem Front.memE (h : Front m v y fs cs F C sv se) (hs : Sound m) (e : Int) : e ∈ y.edgeind ↔ VertEdge m v e := by
  constructor
  · intro he; exact ⟨y, h.mem, h.index, he⟩
  · rintro ⟨y', hy', h', he⟩
    rwa [inj_of_nodup hs.unique.verts hy' h.mem (h'.trans h.index.symm)] at he

theorem Front.hasEdge (h : Front m v y fs cs F C sv se) (hs : Sound m) {e : Int} (he : e ∈ y.edgeind) : HasEdge m e := by
  have he := (h.memE hs e).mp he
  exact hs.noDangling.vertEdge _ _ he (by rintro rfl; exact hs.zeroOutside.vertEdge _ he)

theorem Front.hasSurf (h : Front m v y fs cs F C sv se) (hs : Sound m) (hr : Ringed m v) {f : Int} (hf : f ∈ F) :
    HasSurf m f := by
  have hf := (h.memF f).mp hf
  have hz : f ≠ 0 := by rintro rfl; exact hr.surf hf
  obtain ⟨e, -, he⟩ := hf
  exact hs.noDangling.edgeSurf _ _ he hz

theorem rel_vertEdge (h : Front m v y fs cs F C sv se) (hs : Sound m) (x z : Int) :
    VertEdge (assembled m base v sv se sf vs).conn x z ↔ ∃ e f, Nth y.edgeind x e ∧ Nth F z f ∧ EdgeSurf m e f := by
  have sub : ∀ e ∈ y.edgeind, ∀ ed ∈ m.edges, ed.index = e → ∀ f ∈ ed.surfind, f ∈ F := by
    intro e he ed hed hi f hf
    exact (h.memF f).mpr ⟨e, (h.memE hs e).mp he, ed, hed, hi, hf⟩
  constructor
  · rintro ⟨b, hb, rfl, hz⟩
    obtain ⟨r, hr, rfl⟩ := List.mem_map.mp hb
    obtain ⟨e, x, hx, ed, hed, hi, -, -, -, -, -, -, h1, -, h2⟩ := h.eachV.mem hr
    rw [h2, mem_subs h.nodupF (sub e hx.mem ed hed hi)] at hz
    obtain ⟨f, hf, hz⟩ := hz
    exact ⟨e, f, h1 ▸ hx, hz, ed, hed, hi, hf⟩
  · rintro ⟨e, f, hx, hz, ed, hed, hi, hf⟩
    obtain ⟨r, hr, ed', hed', hi', -, -, -, -, -, -, h1, -, h2⟩ := h.eachV.nth hx
    have := inj_of_nodup hs.unique.edges hed' hed (hi'.trans hi.symm)
    subst this
    refine ⟨r.2, List.mem_map.mpr ⟨r, hr, rfl⟩, h1, ?_⟩
    rw [h2, mem_subs h.nodupF (sub e hx.mem ed' hed hi)]
    exact ⟨f, hf, hz⟩

theorem rel_edgeVert (h : Front m v y fs cs F C sv se) (hs : Sound m) (hr : Ringed m v) (z x : Int) :
    EdgeVert (assembled m base v sv se sf vs).conn z x ↔ ∃ e f, Nth y.edgeind x e ∧ Nth F z f ∧ EdgeSurf m e f := by
  have hn := hr.once y h.mem h.index
  constructor
  · rintro ⟨b, hb, rfl, hx⟩
    obtain ⟨r, hr', rfl⟩ := List.mem_map.mp hb
    obtain ⟨f, z, hz, sf, hsf, hi, -, -, h1, h2, -, -⟩ := h.eachE.mem hr'
    rw [h2, mem_subs_filter hn] at hx
    obtain ⟨e, he, hx⟩ := hx
    exact ⟨e, f, hx, h1 ▸ hz, (hs.sym.edgeSurf _ _ (h.hasEdge hs hx.mem) (h.hasSurf hs hr hz.mem)).mpr ⟨sf, hsf, hi, he⟩⟩
  · rintro ⟨e, f, hx, hz, hef⟩
    obtain ⟨r, hr', sf, hsf, hi, -, -, h1, h2, -, -⟩ := h.eachE.nth hz
    obtain ⟨sf', hsf', hi', he⟩ := (hs.sym.edgeSurf _ _ (h.hasEdge hs hx.mem) (h.hasSurf hs hr hz.mem)).mp hef
    have := inj_of_nodup hs.unique.surfs hsf' hsf (hi'.trans hi.symm)
    subst this
    refine ⟨r.2, List.mem_map.mpr ⟨r, hr', rfl⟩, h1, ?_⟩
    rw [h2, mem_subs_filter hn]
    exact ⟨e, he, hx⟩

theorem rel_edgeSurf (h : Front m v y fs cs F C sv se) (hs : Sound m) (h3 : m.volus ≠ []) (z w : Int) :
    EdgeSurf (assembled m base v sv se sf vs).conn z w ↔ ∃ f c, Nth F z f ∧ Nth C w c ∧ SurfVolu m f c := by
  have hl : decide (m.volus.length > 0) = true := by simpa [List.length_pos_iff] using h3
  have sub : ∀ f ∈ F, ∀ sf ∈ m.surfs, sf.index = f → ∀ c ∈ sf.voluind, c ∈ C := by
    intro f hf sf hsf hi c hc
    exact (h.memC c).mpr ⟨f, (h.memF f).mp hf, sf, hsf, hi, hc⟩
  constructor
  · rintro ⟨b, hb, rfl, hx⟩
    obtain ⟨r, hr', rfl⟩ := List.mem_map.mp hb
    obtain ⟨f, z, hz, sf, hsf, hi, -, -, h1, -, -, h2⟩ := h.eachE.mem hr'
    rw [h2, hl, if_pos rfl, mem_subs h.nodupC (sub f hz.mem sf hsf hi)] at hx
    obtain ⟨c, hc, hx⟩ := hx
    exact ⟨f, c, h1 ▸ hz, hx, sf, hsf, hi, hc⟩
  · rintro ⟨f, c, hz, hw, sf', hsf', hi', hc⟩
    obtain ⟨r, hr', sf, hsf, hi, -, -, h1, -, -, h2⟩ := h.eachE.nth hz
    have := inj_of_nodup hs.unique.surfs hsf' hsf (hi'.trans hi.symm)
    subst this
    refine ⟨r.2, List.mem_map.mpr ⟨r, hr', rfl⟩, h1, ?_⟩
    rw [h2, hl, if_pos rfl, mem_subs h.nodupC (sub f hz.mem sf' hsf hi)]
    exact ⟨c, hc, hw⟩

theorem rel_surfEdge (h : Front m v y fs cs F C sv se) (hs : Sound m) (hr : Ringed m v) (h0 : ¬ VoluAt m v 0)
    (hsf : Each C sf (SurfOf m F)) (w z : Int) :
    SurfEdge (assembled m base v sv se sf vs).conn w z ↔ ∃ f c, Nth F z f ∧ Nth C w c ∧ SurfVolu m f c := by
  have hv : ∀ c ∈ C, HasVolu m c := by
    intro c hc
    have hc := (h.memC c).mp hc
    have hz : c ≠ 0 := by rintro rfl; exact h0 hc
    obtain ⟨f, -, hf⟩ := hc
    exact hs.noDangling.surfVolu _ _ hf hz
  constructor
  · rintro ⟨b, hb, rfl, hx⟩
    obtain ⟨r, hr', rfl⟩ := List.mem_map.mp hb
    obtain ⟨c, w, hw, vo, hvo, hi, -, -, h1, h2, -⟩ := hsf.mem hr'
    rw [h2, mem_subs_filter h.nodupF] at hx
    obtain ⟨f, hf, hx⟩ := hx
    exact ⟨f, c, hx, h1 ▸ hw, (hs.sym.surfVolu _ _ (h.hasSurf hs hr hx.mem) (hv c hw.mem)).mpr ⟨vo, hvo, hi, hf⟩⟩
  · rintro ⟨f, c, hz, hw, hfc⟩
    obtain ⟨r, hr', vo, hvo, hi, -, -, h1, h2, -⟩ := hsf.nth hw
    obtain ⟨vo', hvo', hi', hf⟩ := (hs.sym.surfVolu _ _ (h.hasSurf hs hr hz.mem) (hv c hw.mem)).mp hfc
    have := inj_of_nodup hs.unique.volus hvo' hvo (hi'.trans hi.symm)
    subst this
    refine ⟨r.2, List.mem_map.mpr ⟨r, hr', rfl⟩, h1, ?_⟩
    rw [h2, mem_subs_filter h.nodupF]
    exact ⟨f, hf, hz⟩

theorem has_vert (h : Front m v y fs cs F C sv se) (x : Int) :
    HasVert (assembled m base v sv se sf vs).conn x ↔ ∃ e, Nth y.edgeind x e := by
  constructor
  · rintro ⟨b, hb, rfl⟩
    obtain ⟨r, hr', rfl⟩ := List.mem_map.mp hb
    obtain ⟨e, x, hx, ed, -, -, -, -, -, -, -, -, h1, -⟩ := h.eachV.mem hr'
    exact ⟨e, h1 ▸ hx⟩
  · rintro ⟨e, hx⟩
    obtain ⟨r, hr', ed, -, -, -, -, -, -, -, -, h1, -⟩ := h.eachV.nth hx
    exact ⟨r.2, List.mem_map.mpr ⟨r, hr', rfl⟩, h1⟩

theorem has_edge (h : Front m v y fs cs F C sv se) (x : Int) :
    HasEdge (assembled m base v sv se sf vs).conn x ↔ ∃ f, Nth F x f := by
  constructor
  · rintro ⟨b, hb, rfl⟩
    obtain ⟨r, hr', rfl⟩ := List.mem_map.mp hb
    obtain ⟨e, x, hx, ed, -, -, -, -, h1, -⟩ := h.eachE.mem hr'
    exact ⟨e, h1 ▸ hx⟩
  · rintro ⟨e, hx⟩
    obtain ⟨r, hr', ed, -, -, -, -, h1, -⟩ := h.eachE.nth hx
    exact ⟨r.2, List.mem_map.mpr ⟨r, hr', rfl⟩, h1⟩

theorem has_surf (hsf : Each C sf (SurfOf m F)) (x : Int) :
    HasSurf (assembled m base v sv se sf vs).conn x ↔ ∃ c, Nth C x c := by
  constructor
  · rintro ⟨b, hb, rfl⟩
    obtain ⟨r, hr', rfl⟩ := List.mem_map.mp hb
    obtain ⟨e, x, hx, ed, -, -, -, -, h1, -⟩ := hsf.mem hr'
    exact ⟨e, h1 ▸ hx⟩
  · rintro ⟨e, hx⟩
    obtain ⟨r, hr', ed, -, -, -, -, h1, -⟩ := hsf.nth hx
    exact ⟨r.2, List.mem_map.mpr ⟨r, hr', rfl⟩, h1⟩

theorem two_verts (h : Front m v y fs cs F C sv se) : TwoVerts (assembled m base v sv se sf vs).conn := by
  intro b hb
  obtain ⟨r, hr', rfl⟩ := List.mem_map.mp hb
  obtain ⟨e, x, hx, ed, -, -, -, -, -, -, h1, -⟩ := h.eachE.mem hr'
  exact h1

theorem dual_ring (h : Front m v y fs cs F C sv se) (hs : Sound m) (hr : Ringed m v) :
    DualRing m v (assembled m base v sv se sf vs) := by
  have hsv : (assembled m base v sv se sf vs).snaxs.map Snax.edgeind = y.edgeind := by
    show (sv.map Prod.fst).map Snax.edgeind = _
    rw [List.map_map]
    exact h.eachV.field fun a x b hb => by obtain ⟨ed, -, -, -, -, -, -, h1, -⟩ := hb; exact h1
  have hse : (assembled m base v sv se sf vs).snaxedges.map SnaxEdge.surfind = F := by
    show (se.map Prod.fst).map SnaxEdge.surfind = _
    rw [List.map_map]
    exact h.eachE.field fun a x b hb => by obtain ⟨ed, -, -, -, h1, -⟩ := hb; exact h1
  have snax : ∀ s ∈ (assembled m base v sv se sf vs).snaxs, ∃ r ∈ sv, r.1 = s := fun s hs => List.mem_map.mp hs
  refine ⟨⟨hsv ▸ hr.once y h.mem h.index, fun e => by rw [hsv]; exact h.memE hs e⟩, ?_, ?_, ?_,
    ⟨hse ▸ h.nodupF, fun f => by rw [hse]; exact h.memF f⟩, ?_⟩
  · intro s hs'
    obtain ⟨r, hr', rfl⟩ := snax s hs'
    obtain ⟨e, x, hx, ed, -, -, -, h1, h2, h3, -⟩ := h.eachV.mem hr'
    exact ⟨h3.trans h.index, h1, h2⟩
  · intro s hs'
    obtain ⟨r, hr', rfl⟩ := snax s hs'
    obtain ⟨e, x, hx, ed, hed, h1, -, -, -, -, h2, h3, -⟩ := h.eachV.mem hr'
    exact ⟨ed, hed, h1.trans h2.symm, h.index ▸ h3⟩
  · intro x hx
    obtain ⟨r, hr', rfl⟩ := List.mem_map.mp hx
    obtain ⟨e, x, hx, ed, hed, -, -, -, -, -, -, -, -, h1, -⟩ := h.eachV.mem hr'
    exact ⟨y, h.mem, h.index, h1⟩
  · intro a ha b hb
    obtain ⟨r, hr', rfl⟩ := snax a ha
    obtain ⟨q, hq, rfl⟩ := List.mem_map.mp hb
    obtain ⟨e, x, hx, ed, hed, -, h1, -, -, -, h2, -⟩ := h.eachV.mem hr'
    obtain ⟨f, z, hz, sf, hsf, -, h3, h4, -⟩ := h.eachE.mem hq
    rw [rel_edgeVert h hs hr, h1, h2, h3, h4]
    constructor
    · rintro ⟨e', f', he, hf, hef⟩
      rw [hx.fun he, hz.fun hf]; exact hef
    · intro hef; exact ⟨e, f, hx, hz, hef⟩

theorem in_step (h : Front m v y fs cs F C sv se) (hsf : sf.map (fun r => r.1.index) = sf.map (fun r => r.2.index)) :
    InStep (assembled m base v sv se sf vs) := by
  refine ⟨?_, ?_, ?_⟩
  · show (sv.map Prod.fst).map Snax.index = (sv.map Prod.snd).map Vert.index
    rw [List.map_map, List.map_map]
    apply List.map_congr_left
    intro r hr
    obtain ⟨e, x, hx, ed, hed, -, h1, -, -, -, -, -, h2, -⟩ := h.eachV.mem hr
    exact h1.trans h2.symm
  · show (se.map Prod.fst).map SnaxEdge.index = (se.map Prod.snd).map Edge.index
    rw [List.map_map, List.map_map]
    apply List.map_congr_left
    intro r hr
    obtain ⟨e, x, hx, ed, hed, -, h1, -, h2, -⟩ := h.eachE.mem hr
    exact h1.trans h2.symm
  · show (sf.map Prod.fst).map SnaxSurf.index = (sf.map Prod.snd).map Surf.index
    rw [List.map_map, List.map_map]
    exact hsf

theorem inside_only (h : Front m v y fs cs F C sv se) (hs : Sound m) : InsideOnly m v (assembled m base v sv se sf vs) := by
  obtain ⟨p, hp, hpl, hpi⟩ := posOf_mem (ix := Vert.index) (l := m.verts) (k := v) ⟨y, h.mem, h.index⟩
  refine ⟨by simp [assembled], fun i => ?_⟩
  unfold InsideAt
  simp only [assembled, hp, Int.toNat_natCast, Bool.xor_false]
  by_cases hi : i = p
  · subst hi
    simp only [List.getElem?_set_self (by simpa using hpl : i < (List.replicate m.verts.length false).length)]
    exact ⟨fun _ => ⟨_, List.getElem?_eq_getElem hpl, hpi⟩, fun _ => ⟨true, rfl, rfl⟩⟩
  · rw [List.getElem?_set_ne (Ne.symm hi)]
    constructor
    · rintro ⟨b, hb, rfl⟩
      rw [List.getElem?_replicate] at hb
      split at hb <;> simp at hb
    · rintro ⟨y', hy', rfl⟩
      obtain ⟨hil, e⟩ := List.getElem?_eq_some_iff.mp hy'
      subst e
      refine absurd ?_ hi
      have hn := hs.unique.verts
      have := (hn.getElem_inj_iff (i := i) (j := p) (hi := by simpa using hil) (hj := by simpa using hpl)).mp
        (by simpa using hpi.symm)
      exact this

end Relations

end RSVS.Spawn
