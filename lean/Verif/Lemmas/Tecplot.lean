import Verif.Spec.Tecplot
import Verif.Lemmas.OrderMesh
import Verif.Lemmas.Refine

/-!
# Tecplot zones: lemmas
-/

namespace RSVS.Tecplot

open RSVS RSVS.Spec RSVS.Order RSVS.Mesh

variable {α β : Type}

theorem mapM_f2 {f : α → Res β} : ∀ {l : List α} {bs : List β}, List.Forall₂ (fun a b => f a = .ok b) l bs →
    l.mapM (m := Except Fault) f = .ok bs
  | [], _, h => by cases h; rfl
  | a :: l, _, h => by
    cases h with
    | cons h1 h2 => rw [List.mapM_cons, h1, mapM_f2 h2]; rfl

theorem mapM_fun {f : α → Res β} {g : α → β} {l : List α} (h : ∀ a ∈ l, f a = .ok (g a)) :
    l.mapM (m := Except Fault) f = .ok (l.map g) :=
  mapM_f2 (List.forall₂_map_right_iff.mpr (List.forall₂_same.mpr h))

theorem mapM_ex {f : α → Res β} {P : α → β → Prop} : ∀ {l : List α}, (∀ a ∈ l, ∃ b, f a = .ok b ∧ P a b) →
    ∃ bs, l.mapM (m := Except Fault) f = .ok bs ∧ List.Forall₂ P l bs
  | [], _ => ⟨[], rfl, .nil⟩
  | a :: l, h => by
    obtain ⟨b, h1, h2⟩ := h a (by simp)
    obtain ⟨bs, h3, h4⟩ := mapM_ex (l := l) fun x hx => h x (by simp [hx])
    exact ⟨b :: bs, by rw [List.mapM_cons, h1, h3]; rfl, .cons h2 h4⟩

theorem lineOf_from (f : α → Res β) : ∀ (l pre : List α),
    (List.range' pre.length l.length).mapM (m := Except Fault) (fun i : Nat => (elemAt (pre ++ l) (i : Int)).bind f) =
      l.mapM (m := Except Fault) f
  | [], _ => rfl
  | a :: l, pre => by
    have h1 : elemAt (pre ++ a :: l) ((pre.length : Nat) : Int) = .ok a := by
      rw [elemAt_nat _ _ (by simp)]
      simp
    have h2 := lineOf_from f l (pre ++ [a])
    rw [List.length_append, List.length_singleton, List.append_assoc, List.singleton_append] at h2
    rw [List.length_cons, List.range'_succ, List.mapM_cons, List.mapM_cons, h1, h2]
    rfl

theorem lineOf_eq (f : α → Res β) (l : List α) : lineOf l l.length f = l.mapM (m := Except Fault) f := by
  unfold lineOf
  rw [List.range_eq_range']
  exact lineOf_from f l []

theorem isearch_mem {ix : α → Int} {l : List α} (hn : (l.map ix).Nodup) {a : α} (ha : a ∈ l) :
    elemAt l (posOf ix l (ix a)) = .ok a := by
  obtain ⟨b, h1, h2, h3⟩ := elemAt_posOf_ok (ix := ix) (l := l) (k := ix a) ⟨a, ha, rfl⟩
  rw [h1, inj_of_nodup hn h2 ha h3]

theorem rows_eq {ix : α → Int} {l : List α} (hn : (l.map ix).Nodup) (f : α → Res β) : ∀ {F : List α}, (∀ a ∈ F, a ∈ l) →
    (posList ix l (F.map ix)).mapM (m := Except Fault) (fun p => (elemAt l p).bind f) = F.mapM (m := Except Fault) f
  | [], _ => rfl
  | a :: F, h => by
    have := rows_eq hn f (F := F) fun x hx => h x (by simp [hx])
    unfold posList at this ⊢
    rw [List.map_cons, List.map_cons, List.mapM_cons, List.mapM_cons, this, isearch_mem hn (h a (by simp))]
    rfl

theorem keys_eq {ix : α → Int} {l : List α} (hn : (l.map ix).Nodup) (f : α → Res β) {F : List α} (h : ∀ a ∈ F, a ∈ l) :
    (F.map ix).mapM (m := Except Fault) (fun k => (isearch ix l k).bind f) = F.mapM (m := Except Fault) f := by
  rw [← rows_eq hn f h]
  unfold posList isearch
  rw [List.mapM_map, List.map_map, List.mapM_map]
  rfl

theorem of_keys {ix : α → Int} {l : List α} : ∀ {ks : List Int}, (∀ k ∈ ks, ∃ a ∈ l, ix a = k) →
    ∃ F : List α, F.map ix = ks ∧ ∀ a ∈ F, a ∈ l
  | [], _ => ⟨[], rfl, by simp⟩
  | k :: ks, h => by
    obtain ⟨a, h1, h2⟩ := h k (by simp)
    obtain ⟨F, h3, h4⟩ := of_keys (ks := ks) fun x hx => h x (by simp [hx])
    refine ⟨a :: F, by rw [List.map_cons, h2, h3], fun x hx => ?_⟩
    rcases List.mem_cons.mp hx with rfl | hx
    · exact h1
    · exact h4 x hx

/-! ### Numbers -/

theorem numberOf_posOf (ix : α → Int) (l : List α) (k : Int) : NumberOf (l.map ix) (posOf ix l k + 1) k := by
  rcases posOf_cases (ix := ix) l k with ⟨h, h1⟩ | ⟨p, h, hp, h1⟩
  · refine .inr ⟨by omega, fun hk => ?_⟩
    obtain ⟨a, ha, h2⟩ := List.mem_map.mp hk
    exact h1 a ha h2
  · exact .inl ⟨p, by omega, by rw [List.getElem?_map, List.getElem?_eq_getElem hp, Option.map_some, h1]⟩

theorem numberOf_id (l : List Int) (k : Int) : NumberOf l (posOf id l k + 1) k := by
  have := numberOf_posOf id l k
  rwa [List.map_id] at this

theorem numberOf_cell (l : List Int) (k : Int) : NumberOf l (cellNum l k) k := by
  have h : cellNum l k = posOf id l k + 1 := by
    unfold cellNum posOf
    show (match l.findIdx? (fun a => a == k) with | some p => (p : Int) + 1 | none => 0) =
      (match l.findIdx? (fun a => a == k) with | some p => (p : Int) | none => -1) + 1
    cases l.findIdx? (fun a => a == k) <;> rfl
  rw [h]
  exact numberOf_id l k

theorem numberOf_range {l : List Int} {n a : Int} (h : NumberOf l n a) : 0 ≤ n ∧ n ≤ l.length := by
  rcases h with ⟨p, h1, h2⟩ | ⟨h1, _⟩
  · have := (List.getElem?_eq_some_iff.mp h2).1
    omega
  · omega

theorem numberOf_pos {l : List Int} {n a : Int} (h : NumberOf l n a) (ha : a ∈ l) : 1 ≤ n := by
  rcases h with ⟨p, h1, _⟩ | ⟨_, h2⟩
  · omega
  · exact absurd ha h2

theorem numberOf_inj {l : List Int} {n a b : Int} (h : NumberOf l n a) (h' : NumberOf l n b) (ha : a ∈ l) : a = b := by
  rcases h with ⟨p, h1, h2⟩ | ⟨_, h2⟩
  · rcases h' with ⟨q, h3, h4⟩ | ⟨h3, _⟩
    · have : p = q := by omega
      subst this
      rw [h2] at h4
      exact Option.some.inj h4
    · omega
  · exact absurd ha h2

/-! ### Faces -/

theorem faceLoop_ok {num : Int → Int} {m : Mesh} {S : Int → Prop} (hnum : ∀ a b, S a → S b → num a = num b → a = b) :
    ∀ (es : List Int) (past : Int × Int) (r : List Int), S past.1 → S past.2 →
      (∀ e ∈ es, ∀ p, endsOf m e = .ok p → S p.1 ∧ S p.2) →
      orderedVertsLoop m past es = .ok r →
      faceLoop num m (num past.1, num past.2) es = .ok (r.map fun v => num v + 1)
  | [], past, r, _, _, _, h => by cases h; rfl
  | e :: es, past, r, h1, h2, hS, h => by
    unfold orderedVertsLoop at h
    obtain ⟨now, a1, h⟩ := bind_ok_iff.mp h
    obtain ⟨v, a2, h⟩ := bind_ok_iff.mp h
    obtain ⟨r', a3, h⟩ := bind_ok_iff.mp h
    cases h
    obtain ⟨n1, n2⟩ := hS e (by simp) now a1
    have ih := faceLoop_ok hnum es now r' n1 n2 (fun x hx => hS x (by simp [hx])) a3
    unfold faceLoop numEnds
    rw [a1]
    show Except.map _ (faceLoop num m (num now.1, num now.2) es) = _
    rw [ih]
    show Except.ok (((if num now.1 = num past.1 ∨ num now.2 = num past.1 then num past.1 else num past.2) + 1) :: _) = _
    have hv : (if num now.1 = num past.1 ∨ num now.2 = num past.1 then num past.1 else num past.2) = num v := by
      unfold sharedVert at a2
      by_cases hc : now.1 = past.1 ∨ now.2 = past.1
      · rw [if_pos hc] at a2
        rw [if_pos (hc.imp (fun h => by rw [h]) (fun h => by rw [h]))]
        cases a2; rfl
      · rw [if_neg hc] at a2
        rw [if_neg (fun h => hc (h.imp (hnum _ _ n1 h1) (hnum _ _ n2 h1)))]
        split_ifs at a2 with hd
        cases a2; rfl
    rw [hv]
    rfl

theorem endsOf_mem {m : Mesh} {e : Int} {p : Int × Int} (h : endsOf m e = .ok p) :
    ∃ x ∈ m.edges, x.index = e ∧ p.1 ∈ x.vertind ∧ p.2 ∈ x.vertind := by
  unfold endsOf at h
  obtain ⟨x, a1, h⟩ := bind_ok_iff.mp h
  obtain ⟨a, a2, h⟩ := bind_ok_iff.mp h
  obtain ⟨b, a3, h⟩ := bind_ok_iff.mp h
  cases h
  have mem : ∀ {γ : Type} {l : List γ} {i : Int} {c : γ}, vecGet l i = .ok c → c ∈ l := by
    intro γ l i c hc
    unfold vecGet at hc
    split_ifs at hc
    cases hl : l[i.toNat]? with
    | none => rw [hl] at hc; cases hc
    | some d => rw [hl] at hc; cases hc; exact List.mem_of_getElem? hl
  rcases posOf_cases (ix := Edge.index) m.edges e with ⟨q, _⟩ | ⟨q, hq, hq1, hq2⟩
  · rw [q] at a1; cases a1
  · rw [hq, elemAt_nat m.edges q hq1] at a1
    cases a1
    exact ⟨_, List.getElem_mem hq1, hq2, mem a2, mem a3⟩

/-- The nodes of a face. -/
theorem faceNodes_ok {num : Int → Int} {m : Mesh} {W : List Int} (hu : (m.edges.map Edge.index).Nodup)
    (hnum : ∀ v, NumberOf W (num v + 1) v) {es : List Int} (h3 : 3 ≤ es.length)
    (hW : ∀ e ∈ es, ∀ x ∈ m.edges, x.index = e → ∀ v ∈ x.vertind, v ∈ W)
    (hr : ∃ w, GoesRound (EdgeJoins m) es w) :
    ∃ r, faceNodes num m es = .ok r ∧ r.length = es.length ∧ (∀ n ∈ r, 1 ≤ n ∧ n ≤ W.length) ∧
      ∀ w, GoesRound (EdgeJoins m) es w → List.Forall₂ (NumberOf W) r ((List.range es.length).map w) := by
  obtain ⟨w, hw⟩ := hr
  have ho := orderedVerts_ok hu h3 hw
  have hin : ∀ k < es.length, w k ∈ W := by
    intro k hk
    obtain ⟨x, x1, x2, x3⟩ := hw.1 k es[k] (List.getElem?_eq_getElem hk)
    refine hW _ (List.getElem_mem hk) x x1 x2 _ ?_
    rcases x3 with x3 | x3 <;> rw [x3] <;> simp
  have hends : ∀ e ∈ es, ∀ p, endsOf m e = .ok p → p.1 ∈ W ∧ p.2 ∈ W := by
    intro e he p hp
    obtain ⟨x, x1, x2, x3, x4⟩ := endsOf_mem hp
    exact ⟨hW e he x x1 x2 _ x3, hW e he x x1 x2 _ x4⟩
  refine ⟨((List.range es.length).map w).map fun v => num v + 1, ?_, by simp, ?_, ?_⟩
  · unfold orderedVerts at ho
    obtain ⟨l, a1, ho⟩ := bind_ok_iff.mp ho
    obtain ⟨past, a2, ho⟩ := bind_ok_iff.mp ho
    have hl : l ∈ es := by
      rw [show ((es.length : Int) - 1) = ((es.length - 1 : Nat) : Int) by omega] at a1
      rw [vecGet_nat (List.getElem?_eq_getElem (by omega : es.length - 1 < es.length))] at a1
      cases a1
      exact List.getElem_mem _
    obtain ⟨p1, p2⟩ := hends l hl past a2
    unfold faceNodes numEnds
    rw [a1]
    show (Except.map _ (endsOf m l)).bind _ = _
    rw [a2]
    exact faceLoop_ok (S := (· ∈ W))
      (fun a b ha _ hab => numberOf_inj (hnum a) (by rw [hab]; exact hnum b) ha) es past _ p1 p2 hends ho
  · intro n hn
    obtain ⟨v, hv, rfl⟩ := List.mem_map.mp hn
    obtain ⟨k, hk, rfl⟩ := List.mem_map.mp hv
    exact ⟨numberOf_pos (hnum _) (hin k (List.mem_range.mp hk)), (numberOf_range (hnum _)).2⟩
  · intro w' hw'
    have := orderedVerts_ok hu h3 hw'
    rw [ho] at this
    rw [Except.ok.inj this, List.forall₂_map_left_iff]
    exact List.forall₂_same.mpr fun v _ => hnum v

/-! ### Lines of values -/

theorem coords_rows {γ : Type} {V : List γ} {l : List Vert} (g : γ → Vert) (rows : ∀ (_ : Vert → Res ℚ), Res (List ℚ))
    (hrows : ∀ f : Vert → Res ℚ, rows f = V.mapM (m := Except Fault) fun v => f (g v))
    (hV : ∀ v ∈ V, (g v).coord.length = 3) (hl : l ≠ []) (h3 : ∀ v ∈ l, v.coord.length = 3) (n : Nat) :
    ((elemAt l 0).bind fun v0 => ((List.range (min v0.coord.length 3)).mapM (m := Except Fault) fun j : Nat =>
      rows fun v => vecGet v.coord (j : Int)).map
        (· ++ List.replicate (3 - v0.coord.length) (List.replicate n 0))) = .ok (coordRows (V.map g)) := by
  obtain ⟨v0, l, rfl⟩ := List.exists_cons_of_ne_nil hl
  show Except.map _ ((List.range (min v0.coord.length 3)).mapM (m := Except Fault) _) = _
  rw [h3 v0 (by simp)]
  have : (List.range (min 3 3)).mapM (m := Except Fault) (fun j : Nat => rows fun v => vecGet v.coord (j : Int)) =
      .ok ((List.range (min 3 3)).map fun j : Nat => (V.map g).map fun v => v.coord.getD j 0) := by
    refine mapM_fun fun j hj => ?_
    have hj : j < 3 := by simpa using hj
    rw [hrows, List.map_map]
    refine mapM_fun fun v hv => ?_
    have hlt : j < (g v).coord.length := by rw [hV v hv]; exact hj
    rw [vecGet_nat (List.getElem?_eq_getElem hlt)]
    show Except.ok _ = Except.ok ((g v).coord.getD j 0)
    rw [List.getD_eq_getElem?_getD, List.getElem?_eq_getElem hlt]
    rfl
  rw [this]
  rfl

theorem coordLines_ok {m : Mesh} (h3 : Solid m) (hv : m.verts ≠ []) :
    coordLines m m.verts.length = .ok (coordRows m.verts) := by
  have := coords_rows (V := m.verts) (l := m.verts) id (fun f => lineOf m.verts m.verts.length f)
    (fun f => lineOf_eq f m.verts) h3 hv h3 m.verts.length
  rw [List.map_id] at this
  exact this

theorem coordLinesOf_ok {m : Mesh} (h3 : Solid m) (hn : (m.verts.map Vert.index).Nodup) (hv : m.verts ≠ [])
    {V : List Vert} (hV : ∀ v ∈ V, v ∈ m.verts) :
    coordLinesOf m (V.map Vert.index) = .ok (coordRows V) := by
  have := coords_rows (V := V) (l := m.verts) id
    (fun f => (V.map Vert.index).mapM (m := Except Fault) fun i => (isearch Vert.index m.verts i).bind f)
    (fun f => keys_eq hn f hV) (fun v hv => h3 v (hV v hv)) hv h3 (V.map Vert.index).length
  rw [List.map_id] at this
  exact this

theorem valueLines_ok (l : List α) (f t e : α → ℚ) :
    valueLines l l.length f t e = .ok [l.map f, l.map t, l.map e] := by
  unfold valueLines
  rw [lineOf_eq, lineOf_eq, lineOf_eq, mapM_fun (g := f) fun _ _ => rfl, mapM_fun (g := t) fun _ _ => rfl,
    mapM_fun (g := e) fun _ _ => rfl]
  rfl

theorem valueLinesOf_ok {m : Mesh} (hn : (m.volus.map Volu.index).Nodup) {C : List Volu} (hC : ∀ c ∈ C, c ∈ m.volus) :
    valueLinesOf m (C.map Volu.index) = .ok [C.map Volu.fill, C.map Volu.target, C.map Volu.error] := by
  have key : ∀ g : Volu → ℚ, (C.map Volu.index).mapM (m := Except Fault)
      (fun i => (isearch Volu.index m.volus i).map g) = .ok (C.map g) := by
    intro g
    have := keys_eq hn (fun c => (Except.ok (g c) : Res ℚ)) hC
    rw [mapM_fun (g := g) fun _ _ => rfl] at this
    rw [← this]
    congr 1
  unfold valueLinesOf
  rw [key, key, key]
  rfl

end RSVS.Tecplot
