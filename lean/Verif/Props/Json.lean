import Verif.Lemmas.JsonUpdate

/-!
# Properties of configuration updates
-/

namespace RSVS.Props

open RSVS RSVS.Text RSVS.Spec RSVS.Json

variable {V : Type}

/-! ## C44 -/

/-- A tree which looks like a configuration is one. -/
theorem configuration_of_look {T r : J V} (hc : Configuration T) (hr : Proper r)
    (h : ∀ q, (∀ w, look q T ≠ some (.leaf w)) → look q r = look q T)
    (h' : ∀ q w, look q T = some (.leaf w) → ∃ v, look q r = some (.leaf v)) :
    Configuration r := by
  have hback : ∀ q, (∀ w, look q r ≠ some (.leaf w)) → look q r = look q T := by
    intro q hq
    apply h
    intro w hw
    obtain ⟨v, hv⟩ := h' q w hw
    exact hq v hv
  have hnone : ∀ q, look q T ≠ none → look q r ≠ none := by
    intro q hq
    by_cases hl : ∃ w, look q T = some (.leaf w)
    · obtain ⟨w, hw⟩ := hl
      obtain ⟨v, hv⟩ := h' q w hw
      rw [hv]; simp
    · rw [h q (fun w hw => hl ⟨w, hw⟩)]; exact hq
  have hbelow : ∀ p x, part p r = some x → (∀ w, kind x ≠ .leaf w) → (∀ t, child t x = none) →
      False := by
    intro p x hx hnl hno
    have hl : look p r = some (kind x) := by unfold look; rw [hx]; rfl
    have hT := hback p (by rw [hl]; intro w hw; exact hnl w (Option.some.inj hw))
    rw [hl] at hT
    obtain ⟨s, v, h1, h2⟩ := leaf_below hc.noEmpty hc.proper hT.symm
    have := h2 hnl
    cases s with
    | nil => exact this rfl
    | cons t s =>
      have h3 := hnone (p ++ t :: s) (by unfold look; rw [h1]; simp)
      apply h3
      rw [look_append, hx, Option.bind_some, look_cons, hno t]; rfl
  refine ⟨hr, ?_, ?_⟩
  · intro p
    constructor
    · intro hp
      refine hbelow p _ hp (by intro w hw; cases hw) (fun t => ?_)
      show (idx t).bind _ = none
      cases idx t <;> rfl
    · intro hp
      exact hbelow p _ hp (by intro w hw; cases hw) (fun t => rfl)
  · intro p l hp hm
    have hl : look p r = some .obj := by unfold look; rw [hp]; rfl
    have hT := hback p (by rw [hl]; intro w hw; cases hw)
    rw [hl] at hT
    obtain ⟨⟨k, x⟩, he, hk⟩ := List.mem_map.mp hm
    simp only at hk
    have hch : child ['0'] (J.obj l) = some x :=
      (lookup_iff_mem (hr p l hp)).mpr (by rw [← hk]; exact he)
    have h1 : look (p ++ [['0']]) r = some (kind x) := by
      rw [look_append, hp, Option.bind_some, look_cons, hch]; rfl
    have h2 : look (p ++ [['0']]) T ≠ none := by
      intro h3
      have := h (p ++ [['0']]) (by rw [h3]; intro w hw; cases hw)
      rw [h3, h1] at this; cases this
    unfold look at h2
    cases h3 : part (p ++ [['0']]) T with
    | none => rw [h3] at h2; exact h2 rfl
    | some y =>
      rcases above_cases h3 hc.noZero with ⟨h4, _⟩ | ⟨_, h4⟩
      · rw [h4] at hT; cases hT
      · exact h4 rfl

/-- `unflatten` of a map with the keys of a configuration. -/
theorem unflatten_configuration {T : J V} (hc : Configuration T) {m : FlatMap V} (hs : Sorted m)
    (hk : ∀ k v, (k, v) ∈ m → ∃ p w, k = toText p ∧ part p T = some (.leaf w))
    (hall : ∀ p w, part p T = some (.leaf w) → ∃ v, (toText p, v) ∈ m) :
    ∃ r, unflatten m = .ok r ∧ Configuration r ∧
      (∀ p v, (toText p, v) ∈ m → look p r = some (.leaf v)) ∧
      (∀ q, (∀ w, look q T ≠ some (.leaf w)) → look q r = look q T) := by
  obtain ⟨L, rfl⟩ := exists_paths (m := m) (by
    intro e he
    obtain ⟨p, w, h1, _⟩ := hk e.1 e.2 he
    exact ⟨p, h1⟩)
  have hmem : ∀ p v, (toText p, v) ∈ L.map (fun e => (toText e.1, e.2)) ↔ (p, v) ∈ L := by
    intro p v
    rw [List.mem_map]
    constructor
    · rintro ⟨⟨q, u⟩, he, h⟩
      injection h with h1 h2
      rw [← toText_inj h1, ← h2]; exact he
    · intro h; exact ⟨(p, v), h, rfl⟩
  have hL : ∀ e ∈ L, ∃ w, part e.1 T = some (.leaf w) := by
    intro e he
    obtain ⟨p, w, h1, h2⟩ := hk _ _ ((hmem e.1 e.2).mpr he)
    rw [toText_inj h1]; exact ⟨w, h2⟩
  have hallL : ∀ p w, part p T = some (.leaf w) → ∃ v, (p, v) ∈ L := by
    intro p w hp
    obtain ⟨v, hv⟩ := hall p w hp
    exact ⟨v, (hmem p v).mp hv⟩
  obtain ⟨r, h1, I⟩ := Inv.run (full := True) hc.noZero L hL
    (by
      unfold Sorted at hs
      rw [List.map_map, List.pairwise_map] at hs
      exact hs)
    (by
      intro _ e he q t s hq hT
      have h0 : look (q ++ [dec 0]) T ≠ none := by
        obtain ⟨w, hw⟩ := hL e he
        rw [hq] at hw
        rcases above_cases hw hc.noZero with ⟨_, n, hn⟩ | ⟨h, _⟩
        · refine arr_elements hT (i' := n) ?_ (Nat.zero_le _)
          rw [hn] at hw
          have : q ++ dec n :: s = (q ++ [dec n]) ++ s := by simp
          rw [this, part_append] at hw
          unfold look
          cases h : part (q ++ [dec n]) T with
          | none => rw [h] at hw; cases hw
          | some x => simp
        · rw [h] at hT; cases hT
      cases h : look (q ++ [dec 0]) T with
      | none => exact absurd h h0
      | some k =>
        obtain ⟨s', v, h2, _⟩ := leaf_below hc.noEmpty hc.proper h
        obtain ⟨v', hv'⟩ := hallL _ _ h2
        refine ⟨_, hv', s', ?_⟩
        rw [dec_zero]; simp)
  obtain ⟨h2, h3⟩ := I.final hc hL hallL
  refine ⟨r, by rw [unflatten_map]; exact h1, ?_, ?_, h3⟩
  · apply configuration_of_look hc I.proper h3
    intro q w hw
    obtain ⟨v, hv⟩ := hallL q w (look_eq_leaf.mp hw)
    exact ⟨v, h2 _ hv⟩
  · intro p v hv
    exact h2 _ ((hmem p v).mp hv)

/-- `unflatten` of a map with some of the keys of a configuration. -/
theorem unflatten_some {T : J V} (hz : NoZero T) {m : FlatMap V} (hs : Sorted m)
    (hk : ∀ k v, (k, v) ∈ m → ∃ p w, k = toText p ∧ part p T = some (.leaf w)) :
    ∃ L r, m = L.map (fun e => (toText e.1, e.2)) ∧ unflatten m = .ok r ∧ Inv False T L r ∧
      (∀ e ∈ L, ∃ w, part e.1 T = some (.leaf w)) := by
  obtain ⟨L, rfl⟩ := exists_paths (m := m) (by
    intro e he
    obtain ⟨p, w, h1, _⟩ := hk e.1 e.2 he
    exact ⟨p, h1⟩)
  have hL : ∀ e ∈ L, ∃ w, part e.1 T = some (.leaf w) := by
    intro e he
    obtain ⟨p, w, h1, h2⟩ := hk _ _ (List.mem_map_of_mem he)
    rw [toText_inj h1]; exact ⟨w, h2⟩
  obtain ⟨r, h1, I⟩ := Inv.run (full := False) hz L hL
    (by
      unfold Sorted at hs
      rw [List.map_map, List.pairwise_map] at hs
      exact hs)
    (fun h => h.elim)
  exact ⟨L, r, rfl, by rw [unflatten_map]; exact h1, I, hL⟩

/-- C44 for trees: updating a configuration by a partial tree sets exactly the values which the
partial tree mentions.  The result is a configuration again, so that further updates can
follow. -/
theorem C44_tree_partial (fin new : J V) (hf : Configuration fin) (h1 : Proper new)
    (h2 : NoEmpty new) (hp : Partial new fin) :
    ∃ r, flatupdate fin new = .ok r ∧ Configuration r ∧
      (∀ p v, look p new = some (.leaf v) → look p r = some (.leaf v)) ∧
      (∀ p, (∀ v, look p new ≠ some (.leaf v)) → look p r = look p fin) := by
  -- the entries of the updated map
  have hnewmem : ∀ k v, (k, v) ∈ flatten new ↔ ∃ p, k = toText p ∧ part p new = some (.leaf v) :=
    fun k v => mem_flatten h2 h1
  have hfinmem : ∀ k v, (k, v) ∈ flatten fin ↔ ∃ p, k = toText p ∧ part p fin = some (.leaf v) :=
    fun k v => mem_flatten hf.noEmpty hf.proper
  have hsort := sorted_update (sorted_flatten fin) (flatten new)
  have hfun : ∀ k v w, (k, v) ∈ flatten new → (k, w) ∈ flatten new → v = w := by
    intro k v w hv hw
    have h3 := (sorted_flatten new).lookup hv
    have h4 := (sorted_flatten new).lookup hw
    rw [h3] at h4
    exact Option.some.inj h4
  have hmem1 : ∀ p v, part p new = some (.leaf v) →
      (toText p, v) ∈ update (flatten fin) (flatten new) := by
    intro p v hv
    rw [hsort.mem_iff]
    exact lookup_update_mem hfun ((hnewmem _ _).mpr ⟨p, rfl, hv⟩)
  have hmem2 : ∀ p, (∀ v, part p new ≠ some (.leaf v)) → ∀ v,
      (toText p, v) ∈ update (flatten fin) (flatten new) ↔ part p fin = some (.leaf v) := by
    intro p hpn v
    rw [hsort.mem_iff, lookup_update_not, ← (sorted_flatten fin).mem_iff, hfinmem]
    · constructor
      · rintro ⟨q, h3, h4⟩; rw [toText_inj h3]; exact h4
      · intro h; exact ⟨p, rfl, h⟩
    · intro w hw
      obtain ⟨q, h3, h4⟩ := (hnewmem _ _).mp hw
      rw [← toText_inj h3] at h4
      exact hpn w h4
  have hpart : ∀ p v, part p new = some (.leaf v) → ∃ w, part p fin = some (.leaf w) := by
    intro p v h
    obtain ⟨w, hw⟩ := hp p v (look_eq_leaf.mpr h)
    exact ⟨w, look_eq_leaf.mp hw⟩
  -- the keys are those of the configuration
  have hkeys : ∀ k v, (k, v) ∈ update (flatten fin) (flatten new) →
      ∃ p w, k = toText p ∧ part p fin = some (.leaf w) := by
    intro k v hkv
    have hkv' := (hsort.mem_iff).mp hkv
    by_cases hex : ∃ w, (k, w) ∈ flatten new
    · obtain ⟨w, hw⟩ := hex
      obtain ⟨p, h3, h4⟩ := (hnewmem _ _).mp hw
      obtain ⟨w', hw'⟩ := hpart p w h4
      exact ⟨p, w', h3, hw'⟩
    · rw [lookup_update_not (fun w hw => hex ⟨w, hw⟩), ← (sorted_flatten fin).mem_iff,
        hfinmem] at hkv'
      obtain ⟨p, h3, h4⟩ := hkv'
      exact ⟨p, v, h3, h4⟩
  obtain ⟨r, hr1, hr2, hr3, hr4⟩ := unflatten_configuration hf hsort hkeys (by
    intro p w hw
    by_cases hex : ∃ v, part p new = some (.leaf v)
    · obtain ⟨v, hv⟩ := hex
      exact ⟨v, hmem1 p v hv⟩
    · exact ⟨w, (hmem2 p (fun v hv => hex ⟨v, hv⟩) w).mpr hw⟩)
  obtain ⟨_, x, _, hx, _, _⟩ := unflatten_some hf.noZero (sorted_flatten new) (by
    intro k v hkv
    obtain ⟨p, h3, h4⟩ := (hnewmem _ _).mp hkv
    obtain ⟨w, hw⟩ := hpart p v h4
    exact ⟨p, w, h3, hw⟩)
  refine ⟨r, ?_, hr2, ?_, ?_⟩
  · unfold flatupdate
    rw [hx]
    exact hr1
  · intro p v hv
    exact hr3 p v (hmem1 p v (look_eq_leaf.mp hv))
  · intro p hpn
    have hpn' : ∀ v, part p new ≠ some (.leaf v) := fun v hv => hpn v (look_eq_leaf.mpr hv)
    by_cases hl : ∃ w, look p fin = some (.leaf w)
    · obtain ⟨w, hw⟩ := hl
      rw [hw]
      exact hr3 p w ((hmem2 p hpn' w).mpr (look_eq_leaf.mp hw))
    · exact hr4 p (fun w hw => hl ⟨w, hw⟩)

/-- C44 for trees, repeated: later updates win over earlier ones. -/
theorem C44_later_partial (fin a b : J V) (hf : Configuration fin) (ha1 : Proper a)
    (ha2 : NoEmpty a) (ha : Partial a fin) (hb1 : Proper b) (hb2 : NoEmpty b)
    (hb : Partial b fin) :
    ∃ r s, flatupdate fin a = .ok r ∧ flatupdate r b = .ok s ∧ Configuration s ∧
      (∀ p v, look p b = some (.leaf v) → look p s = some (.leaf v)) ∧
      (∀ p, (∀ v, look p b ≠ some (.leaf v)) →
        (∀ v, look p a = some (.leaf v) → look p s = some (.leaf v)) ∧
        ((∀ v, look p a ≠ some (.leaf v)) → look p s = look p fin)) := by
  obtain ⟨r, h1, h2, h3, h4⟩ := C44_tree_partial fin a hf ha1 ha2 ha
  have hbr : Partial b r := by
    intro p v hv
    obtain ⟨w, hw⟩ := hb p v hv
    by_cases hex : ∃ u, look p a = some (.leaf u)
    · obtain ⟨u, hu⟩ := hex
      exact ⟨u, h3 p u hu⟩
    · rw [h4 p (fun u hu => hex ⟨u, hu⟩)]; exact ⟨w, hw⟩
  obtain ⟨s, g1, g2, g3, g4⟩ := C44_tree_partial r b h2 hb1 hb2 hbr
  refine ⟨r, s, h1, g1, g2, g3, ?_⟩
  intro p hp
  rw [g4 p hp]
  exact ⟨h3 p, h4 p⟩

/-- A configuration with an array, a number, a string and a boolean. -/
def jsonFin : J Val :=
  .obj [("grid".toList, .obj [("size".toList,
      .arr [.leaf (some (.int 6)), .leaf (some (.int 7)), .leaf (some (.int 8))])]),
    ("name".toList, .leaf (some (.str "a".toList))),
    ("on".toList, .leaf (some (.bool true)))]

/-- A partial configuration. -/
def jsonNew : J Val :=
  .obj [("grid".toList, .obj [("size".toList, .arr [.leaf (some (.int 1))])]),
    ("on".toList, .leaf (some (.bool false)))]

theorem jsonFin_configuration : Configuration jsonFin := by
  apply configuration_obj (by simp) (by decide) (by decide)
  intro e he
  simp only [List.mem_cons, List.not_mem_nil, or_false] at he
  rcases he with rfl | rfl | rfl
  · apply configuration_obj (by simp) (by decide) (by decide)
    intro e he
    simp only [List.mem_cons, List.not_mem_nil, or_false] at he
    subst he
    apply configuration_arr (by simp)
    intro e he
    simp only [List.mem_cons, List.not_mem_nil, or_false] at he
    rcases he with rfl | rfl | rfl <;> exact configuration_leaf _
  · exact configuration_leaf _
  · exact configuration_leaf _

theorem jsonNew_configuration : Configuration jsonNew := by
  apply configuration_obj (by simp) (by decide) (by decide)
  intro e he
  simp only [List.mem_cons, List.not_mem_nil, or_false] at he
  rcases he with rfl | rfl
  · apply configuration_obj (by simp) (by decide) (by decide)
    intro e he
    simp only [List.mem_cons, List.not_mem_nil, or_false] at he
    subst he
    apply configuration_arr (by simp)
    intro e he
    simp only [List.mem_cons, List.not_mem_nil, or_false] at he
    subst he
    exact configuration_leaf _
  · exact configuration_leaf _

theorem jsonNew_partial : Partial jsonNew jsonFin := by
  intro p v h
  rw [look_eq_leaf, ← mem_flat jsonNew_configuration.noEmpty jsonNew_configuration.proper] at h
  have hmem : (p, v) ∈ [(["grid".toList, "size".toList, dec 0], some (Val.int 1)),
      (["on".toList], some (Val.bool false))] := h
  simp only [List.mem_cons, List.not_mem_nil, or_false] at hmem
  rcases hmem with h | h <;> cases h
  · refine ⟨some (.int 6), ?_⟩
    rw [look_eq_leaf, ← mem_flat jsonFin_configuration.noEmpty jsonFin_configuration.proper]
    show _ ∈ [(["grid".toList, "size".toList, dec 0], some (Val.int 6)),
      (["grid".toList, "size".toList, dec 1], some (Val.int 7)),
      (["grid".toList, "size".toList, dec 2], some (Val.int 8)),
      (["name".toList], some (Val.str "a".toList)), (["on".toList], some (Val.bool true))]
    simp
  · exact ⟨some (.bool true), rfl⟩

example : ∃ r, flatupdate jsonFin jsonNew = .ok r ∧
    look ["on".toList] r = some (.leaf (some (.bool false))) ∧
    look ["name".toList] r = some (.leaf (some (.str "a".toList))) := by
  obtain ⟨r, h1, _, h3, h4⟩ := C44_tree_partial jsonFin jsonNew jsonFin_configuration
    jsonNew_configuration.proper jsonNew_configuration.noEmpty jsonNew_partial
  refine ⟨r, h1, h3 _ _ rfl, ?_⟩
  rw [h4]
  · rfl
  · intro v h; cases h

/-! ## C44 for files -/

theorem foldlM_place_error {m : FlatMap V} {e : Str × Option V} (he : e ∈ m)
    (hp : ∀ r : J V, ∃ f, place r e = .error f) (r : J V) :
    ∃ f, m.foldlM place r = .error f := by
  induction m generalizing r with
  | nil => cases he
  | cons a m ih =>
    rw [List.foldlM_cons]
    rcases List.mem_cons.mp he with rfl | he
    · obtain ⟨f, hf⟩ := hp r
      rw [hf]; exact ⟨f, rfl⟩
    · cases h : place r a with
      | error f => exact ⟨f, rfl⟩
      | ok r' => exact ih he r'

theorem leaves_some {l : List (Str × J V)} {m : FlatMap V} (h : leaves l = some m) :
    l = m.map (fun e => (e.1, .leaf e.2)) := by
  induction l generalizing m with
  | nil => cases h; rfl
  | cons e l ih =>
    obtain ⟨k, x⟩ := e
    cases x with
    | leaf v =>
      rw [leaves] at h
      cases hl : leaves l with
      | none => rw [hl] at h; cases h
      | some m' =>
        rw [hl] at h
        have := Option.some.inj h
        subst this
        rw [ih hl]; rfl
    | arr a => cases h
    | obj a => cases h

/-- C44 for files which are not flat: reading such a file is the update by its tree. -/
theorem C44_nested (p j : J V) (h : Nested j) : Json.read p j = flatupdate p j := by
  have hu : ∃ f, unflattenJ j = .error f := by
    cases j with
    | leaf v => exact ⟨_, rfl⟩
    | arr l => exact ⟨_, rfl⟩
    | obj l =>
      obtain ⟨e, he, h⟩ := h
      unfold unflattenJ
      simp only
      cases hl : leaves l with
      | none => exact ⟨.throws, rfl⟩
      | some m =>
        have hm := leaves_some hl
        rw [hm] at he
        obtain ⟨a, ha, rfl⟩ := List.mem_map.mp he
        rcases h with h | ⟨h1, h2⟩
        · exact absurd rfl (h a.2)
        · refine foldlM_place_error ha ?_ _
          intro r
          refine ⟨.throws, ?_⟩
          show (parsePtr a.1).bind _ = _
          have : parsePtr a.1 = .error .throws := by
            cases hk : a.1 with
            | nil => exact absurd hk h1
            | cons c s =>
              rw [parsePtr, if_neg]
              rintro rfl
              apply h2
              simp [hk]
          rw [this]; rfl
  obtain ⟨f, hf⟩ := hu
  unfold Json.read
  rw [hf]

example : Nested jsonNew := ⟨_, List.mem_cons_self, Or.inl (by intro v h; cases h)⟩

/-- C44 for flat files which leave out no element of an array: the values mentioned are set, all
others stay. -/
theorem C44_flat_partial (fin : J V) (hf : Configuration fin) (m : FlatMap V) (hs : Sorted m)
    (hne : m ≠ [])
    (hk : ∀ e ∈ m, ∃ p w, e.1 = toText p ∧ look p fin = some (.leaf w))
    (hg : Gapless fin m) :
    ∃ r, Json.read fin (.obj (m.map (fun e => (e.1, .leaf e.2)))) = .ok r ∧ Configuration r ∧
      (∀ p v, (toText p, v) ∈ m → look p r = some (.leaf v)) ∧
      (∀ p, (∀ v, (toText p, v) ∉ m) → look p r = look p fin) := by
  obtain ⟨L, x, rfl, hx, I, hL⟩ := unflatten_some hf.noZero hs (by
    intro k v hkv
    obtain ⟨p, w, h1, h2⟩ := hk _ hkv
    exact ⟨p, w, h1, look_eq_leaf.mp h2⟩)
  have hmem : ∀ p v, (toText p, v) ∈ L.map (fun e => (toText e.1, e.2)) ↔ (p, v) ∈ L := by
    intro p v
    rw [List.mem_map]
    constructor
    · rintro ⟨⟨q, u⟩, he, h⟩
      injection h with h1 h2
      rw [← toText_inj h1, ← h2]; exact he
    · intro h; exact ⟨(p, v), h, rfl⟩
  have hLne : ∃ e, e ∈ L := by
    cases L with
    | nil => exact absurd rfl hne
    | cons e L => exact ⟨e, by simp⟩
  -- the place of a leaf above which nothing else can stand
  have habove : ∀ e ∈ L, ∀ q t s, e.1 = q ++ t :: s → ∀ v, part q x ≠ some (.leaf v) := by
    intro e he q t s hq v hv
    rw [← look_eq_leaf] at hv
    rcases I.above e he q t s hq with h | ⟨h, _⟩ <;> rw [h] at hv <;> cases hv
  -- the leaves of the tree read
  have hxleaf : ∀ p v, part p x = some (.leaf v) ↔ (p, v) ∈ L := by
    intro p v
    constructor
    · intro hv
      have hpre : ∃ e ∈ L, p <+: e.1 := by
        by_cases h0 : p = []
        · obtain ⟨e, he⟩ := hLne
          exact ⟨e, he, by rw [h0]; exact List.nil_prefix⟩
        · rcases I.rest p h0 (by rw [look_eq_leaf.mpr hv]; simp) with h |
            ⟨_, q0, i, i', e, he, h5, h6, h7, h8⟩
          · exact h
          · obtain ⟨u, hu⟩ := h7
            have hu' : e.1 = q0 ++ dec i' :: u := by rw [← hu]; simp
            have hT : look q0 fin = some .arr := by
              rcases I.above e he q0 _ u hu' with h | ⟨_, h⟩
              · rw [h] at h8; cases h8
              · exact h
            obtain ⟨s', v', hv'⟩ := hg q0 i i' u e.2 hT (by
              rw [← hu', hmem]; exact he) h6
            refine ⟨_, (hmem _ _).mp hv', ?_⟩
            rw [h5]
            exact ⟨s', by simp⟩
      obtain ⟨e, he, hpre⟩ := hpre
      rcases prefix_cases hpre with h | ⟨t, s, h⟩
      · have := I.leaves e he
        rw [← h, hv] at this
        injection this with this
        injection this with this
        rw [h, this]; exact he
      · exact absurd hv (habove e he p t s h v)
    · intro h; exact I.leaves _ h
  have hxne : NoEmpty x := by
    have key : ∀ q y, part q x = some y → (∀ v, kind y ≠ .leaf v) → ∃ t, child t y ≠ none := by
      intro q y hy hnl
      have hpre : ∃ e ∈ L, q <+: e.1 := by
        by_cases h0 : q = []
        · obtain ⟨e, he⟩ := hLne
          exact ⟨e, he, by rw [h0]; exact List.nil_prefix⟩
        · have hlook : look q x = some (kind y) := by unfold look; rw [hy]; rfl
          rcases I.rest q h0 (by rw [hlook]; simp) with h | ⟨h, _⟩
          · exact h
          · rw [hlook] at h
            exact absurd (Option.some.inj h) (hnl none)
      obtain ⟨e, he, hpre⟩ := hpre
      have hl := I.leaves e he
      rcases prefix_cases hpre with h | ⟨t, s, h⟩
      · rw [← h, hy] at hl
        have := Option.some.inj hl
        exact absurd (by rw [this]; rfl) (hnl e.2)
      · refine ⟨t, fun hn => ?_⟩
        rw [h, part_append, hy, Option.bind_some, part_cons, hn] at hl
        cases hl
    intro q
    refine ⟨?_, ?_⟩
    · intro hq
      obtain ⟨t, ht⟩ := key q _ hq (by intro v h; cases h)
      apply ht
      show (idx t).bind _ = none
      cases idx t <;> rfl
    · intro hq
      obtain ⟨t, ht⟩ := key q _ hq (by intro v h; cases h)
      exact ht rfl
  obtain ⟨r, h1, h2, h3, h4⟩ := C44_tree_partial fin x hf I.proper hxne (by
    intro p v hv
    obtain ⟨w, hw⟩ := hL _ ((hxleaf p v).mp (look_eq_leaf.mp hv))
    exact ⟨w, look_eq_leaf.mpr hw⟩)
  refine ⟨r, ?_, h2, ?_, ?_⟩
  · have hlv : ∀ m : FlatMap V, leaves (m.map (fun e => (e.1, J.leaf e.2))) = some m := by
      intro m
      induction m with
      | nil => rfl
      | cons e m ih =>
        rw [List.map_cons, leaves, ih]; rfl
    unfold Json.read unflattenJ
    simp only [hlv, hx]
    exact h1
  · intro p v hv
    exact h3 p v (look_eq_leaf.mpr ((hxleaf p v).mpr ((hmem p v).mp hv)))
  · intro p hp
    apply h4
    intro v hv
    exact hp v ((hmem p v).mpr ((hxleaf p v).mp (look_eq_leaf.mp hv)))

example : Sorted [("/grid/size/0".toList, some (Val.int 1)), ("/on".toList, some (.bool false))] ∧
    Gapless jsonFin [("/grid/size/0".toList, some (Val.int 1)), ("/on".toList, some (.bool false))] := by
  refine ⟨by unfold Sorted; decide, ?_⟩
  intro q i i' s v hq hm hi
  exfalso
  simp only [List.mem_cons, List.not_mem_nil, or_false] at hm
  rcases hm with h | h
  · have h1 : q ++ dec i' :: s = ["grid".toList, "size".toList, "0".toList] :=
      toText_inj ((congrArg Prod.fst h).trans (by decide))
    have h0 : "0".toList = dec 0 := by decide +kernel
    rcases q with _ | ⟨a, _ | ⟨b, _ | ⟨c, q⟩⟩⟩
    · cases hq
    · simp only [List.cons_append, List.nil_append, List.cons.injEq] at h1
      rw [h1.1] at hq; cases hq
    · simp only [List.cons_append, List.nil_append, List.cons.injEq] at h1
      rw [h0] at h1
      have := dec_inj h1.2.2.1
      omega
    · simp at h1
  · have h1 : q ++ dec i' :: s = ["on".toList] :=
      toText_inj ((congrArg Prod.fst h).trans (by decide))
    rcases q with _ | ⟨a, q⟩
    · cases hq
    · simp at h1

/-- C44 for files read by `readflat`: elements of arrays may be left out too. -/
theorem C44_readflat_partial (fin : J V) (hf : Configuration fin) (m : FlatMap V) (hs : Sorted m)
    (hk : ∀ e ∈ m, ∃ p w, e.1 = toText p ∧ look p fin = some (.leaf w)) :
    ∃ r, readflat fin m = .ok r ∧ Configuration r ∧
      (∀ p v, (toText p, v) ∈ m → look p r = some (.leaf v)) ∧
      (∀ p, (∀ v, (toText p, v) ∉ m) → look p r = look p fin) := by
  have hfinmem : ∀ k v, (k, v) ∈ flatten fin ↔ ∃ p, k = toText p ∧ part p fin = some (.leaf v) :=
    fun k v => mem_flatten hf.noEmpty hf.proper
  have hsort := sorted_update (sorted_flatten fin) m
  have hfun : ∀ k v w, (k, v) ∈ m → (k, w) ∈ m → v = w := by
    intro k v w hv hw
    have h3 := hs.lookup hv
    have h4 := hs.lookup hw
    rw [h3] at h4
    exact Option.some.inj h4
  have hk' : ∀ k v, (k, v) ∈ m → ∃ p w, k = toText p ∧ part p fin = some (.leaf w) := by
    intro k v hkv
    obtain ⟨p, w, h1, h2⟩ := hk _ hkv
    exact ⟨p, w, h1, look_eq_leaf.mp h2⟩
  have hmem1 : ∀ k v, (k, v) ∈ m → (k, v) ∈ update (flatten fin) m := by
    intro k v hv
    rw [hsort.mem_iff]
    exact lookup_update_mem hfun hv
  have hmem2 : ∀ p, (∀ v, (toText p, v) ∉ m) → ∀ v,
      (toText p, v) ∈ update (flatten fin) m ↔ part p fin = some (.leaf v) := by
    intro p hpn v
    rw [hsort.mem_iff, lookup_update_not hpn, ← (sorted_flatten fin).mem_iff, hfinmem]
    constructor
    · rintro ⟨q, h3, h4⟩; rw [toText_inj h3]; exact h4
    · intro h; exact ⟨p, rfl, h⟩
  obtain ⟨r, hr1, hr2, hr3, hr4⟩ := unflatten_configuration hf hsort
    (by
      intro k v hkv
      by_cases hex : ∃ w, (k, w) ∈ m
      · obtain ⟨w, hw⟩ := hex
        exact hk' k w hw
      · have hkv' := (hsort.mem_iff).mp hkv
        rw [lookup_update_not (fun w hw => hex ⟨w, hw⟩), ← (sorted_flatten fin).mem_iff,
          hfinmem] at hkv'
        obtain ⟨p, h3, h4⟩ := hkv'
        exact ⟨p, v, h3, h4⟩)
    (by
      intro p w hw
      by_cases hex : ∃ v, (toText p, v) ∈ m
      · obtain ⟨v, hv⟩ := hex
        exact ⟨v, hmem1 _ v hv⟩
      · exact ⟨w, (hmem2 p (fun v hv => hex ⟨v, hv⟩) w).mpr hw⟩)
  obtain ⟨_, x, _, hx, _, _⟩ := unflatten_some hf.noZero hs hk'
  refine ⟨r, ?_, hr2, ?_, ?_⟩
  · unfold readflat
    rw [hx]
    exact hr1
  · intro p v hv
    exact hr3 p v (hmem1 _ _ hv)
  · intro p hpn
    by_cases hl : ∃ w, look p fin = some (.leaf w)
    · obtain ⟨w, hw⟩ := hl
      rw [hw]
      exact hr3 p w ((hmem2 p hpn w).mpr (look_eq_leaf.mp hw))
    · exact hr4 p (fun w hw => hl ⟨w, hw⟩)

example : ∃ r, readflat jsonFin [("/grid/size/0".toList, some (.int 1)),
      ("/grid/size/2".toList, some (.int 3))] = .ok r ∧
    look ["grid".toList, "size".toList, "1".toList] r = some (.leaf (some (.int 7))) := by
  have hl : ∀ p v, (p, v) ∈ flat jsonFin → look p jsonFin = some (.leaf v) := by
    intro p v h
    rw [mem_flat jsonFin_configuration.noEmpty jsonFin_configuration.proper] at h
    exact look_eq_leaf.mpr h
  obtain ⟨r, h1, _, _, h4⟩ := C44_readflat_partial jsonFin jsonFin_configuration
    [("/grid/size/0".toList, some (.int 1)), ("/grid/size/2".toList, some (.int 3))]
    (by unfold Sorted; decide)
    (by
      intro e he
      simp only [List.mem_cons, List.not_mem_nil, or_false] at he
      rcases he with rfl | rfl
      · exact ⟨["grid".toList, "size".toList, "0".toList], some (.int 6), by decide,
          hl _ _ (by decide +kernel)⟩
      · exact ⟨["grid".toList, "size".toList, "2".toList], some (.int 8), by decide,
          hl _ _ (by decide +kernel)⟩)
  refine ⟨r, h1, ?_⟩
  rw [h4]
  · exact hl _ _ (by decide +kernel)
  · intro v h
    simp only [List.mem_cons, List.not_mem_nil, or_false] at h
    rcases h with h | h
    · have h' := congrArg Prod.fst h
      simp only at h'
      revert h'; decide
    · have h' := congrArg Prod.fst h
      simp only at h'
      revert h'; decide

/-- Is null at a place of a result? -/
def nullAt (p : Path) (r : Res (J Val)) : Bool :=
  match r with
  | .ok j => match part p j with
    | some (.leaf none) => true
    | _ => false
  | .error _ => false

/-- C44 fails for a flat file which leaves out an element of an array: of the three sizes, the
file sets the first and the third; the second becomes null. -/
theorem C44_flat_violated :
    nullAt ["grid".toList, "size".toList, "1".toList]
      (Json.read jsonFin (.obj [("/grid/size/0".toList, .leaf (some (.int 1))),
        ("/grid/size/2".toList, .leaf (some (.int 3)))])) = true ∧
    look ["grid".toList, "size".toList, "1".toList] jsonFin = some (.leaf (some (.int 7))) := by
  refine ⟨by decide +kernel, ?_⟩
  rw [look_eq_leaf, ← mem_flat jsonFin_configuration.noEmpty jsonFin_configuration.proper]
  decide +kernel

/-- An empty array in a file is also read as null. -/
theorem C44_empty_violated :
    nullAt ["grid".toList, "list".toList]
      (Json.read (.obj [("grid".toList, .obj [("list".toList, .arr []), ("on".toList, .leaf (some (.bool true)))])])
        (.obj [("grid".toList, .obj [("on".toList, .leaf (some (.bool false)))])])) = true := by
  decide +kernel

/-! ## C44 for parameter strings -/

theorem splitSep_append {sep : Char} {k s : Str} (h : sep ∉ k) :
    splitSep sep (k ++ sep :: s) = some (k, s) := by
  induction k with
  | nil => show (if sep = sep then _ else _) = _; rw [if_pos rfl]
  | cons c k ih =>
    rw [List.mem_cons, not_or] at h
    show (if c = sep then _ else (splitSep sep (k ++ sep :: s)).map _) = _
    rw [if_neg (fun h' => h.1 h'.symm), ih h.2]; rfl

theorem splitSep_none {sep : Char} {s : Str} (h : sep ∉ s) : splitSep sep s = none := by
  induction s with
  | nil => rfl
  | cons c k ih =>
    rw [List.mem_cons, not_or] at h
    show (if c = sep then _ else _) = _
    rw [if_neg (fun h' => h.1 h'.symm), ih h.2]; rfl

theorem readAs_sameType {R : Readers} {a b : Val} (h : sameType a b) (s : Str) :
    readAs R a s = readAs R b s := by
  cases a <;> cases b <;> first | exact h.elim | rfl

theorem sameType_trans {a b c : Val} (h : sameType a b) (h' : sameType b c) : sameType a c := by
  cases a <;> cases b <;> cases c <;> first | exact h.elim | exact h'.elim | trivial

theorem sameType_refl (a : Val) : sameType a a := by
  cases a <;> trivial

/-- One string which names a parameter and gives a value of its type. -/
theorem updateOne_known {R : Readers} {n : Nat} {m : FlatMap Val} {k s : Str} {old v : Val}
    (hk : ':' ∉ k) (hl : m.lookup k = some (some old)) (hv : readAs R old s = .ok (some v)) :
    updateOne R (n, m) (k ++ ':' :: s) = .ok (n, assign k (some v) m) := by
  unfold updateOne
  rw [splitSep_append hk]
  simp only
  rw [hl]
  cases old <;> simp only [readAs] at hv ⊢
  · cases hv; rfl
  · cases h : R.stoi s with
    | error f => rw [h] at hv; cases hv
    | ok i => rw [h] at hv; cases hv; rfl
  · cases h : R.stod s with
    | error f => rw [h] at hv; cases hv
    | ok i => rw [h] at hv; cases hv; rfl
  · rw [hv]; rfl

/-- The assignment of a string to the value at a path, as text. -/
def assignment (e : Path × Str) : Str := toText e.1 ++ ':' :: e.2

theorem updates_known {R : Readers} {fin : J Val} (kvs : List (Path × Str))
    (hkv : ∀ e ∈ kvs, ':' ∉ toText e.1 ∧ ∃ old v, look e.1 fin = some (.leaf (some old)) ∧
      readAs R old e.2 = .ok (some v) ∧ sameType old v) (n : Nat) (m : FlatMap Val)
    (hs : Sorted m)
    (hk : ∀ k v, m.lookup k = some v → ∃ p w, k = toText p ∧ look p fin = some (.leaf w))
    (hall : ∀ p w, look p fin = some (.leaf (some w)) →
      ∃ v, m.lookup (toText p) = some (some v) ∧ sameType w v) :
    ∃ m', (kvs.map assignment).foldlM (updateOne R) (n, m) = .ok (n, m') ∧ Sorted m' ∧
      (∀ k v, m'.lookup k = some v → ∃ p w, k = toText p ∧ look p fin = some (.leaf w)) ∧
      (∀ p, (∀ e ∈ kvs, e.1 ≠ p) → m'.lookup (toText p) = m.lookup (toText p)) ∧
      (∀ pre p s post old v, kvs = pre ++ (p, s) :: post → (∀ e ∈ post, e.1 ≠ p) →
        look p fin = some (.leaf (some old)) → readAs R old s = .ok (some v) →
        m'.lookup (toText p) = some (some v)) := by
  induction kvs generalizing m with
  | nil =>
    refine ⟨m, rfl, hs, hk, fun _ _ => rfl, ?_⟩
    intro pre p s post old v h
    cases pre <;> cases h
  | cons e kvs ih =>
    obtain ⟨hc, old, v, ho, hv, hov⟩ := hkv e List.mem_cons_self
    obtain ⟨w, hw, how⟩ := hall _ _ ho
    have h1 : updateOne R (n, m) (assignment e) = .ok (n, assign (toText e.1) (some v) m) :=
      updateOne_known hc hw (by rw [← readAs_sameType how]; exact hv)
    obtain ⟨m', h2, h3, h4, h5, h6⟩ := ih (fun e he => hkv e (List.mem_cons_of_mem _ he))
      (assign (toText e.1) (some v) m) (hs.assign _ _)
      (by
        intro k u hu
        rw [lookup_assign] at hu
        split at hu
        · rename_i hke; exact ⟨e.1, some old, hke, ho⟩
        · exact hk k u hu)
      (by
        intro p u hu
        rw [lookup_assign]
        split
        · rename_i hpe
          rw [toText_inj hpe, ho] at hu
          cases hu
          exact ⟨v, rfl, hov⟩
        · exact hall p u hu)
    refine ⟨m', ?_, h3, h4, ?_, ?_⟩
    · rw [List.map_cons, List.foldlM_cons]
      show (updateOne R (n, m) (assignment e) >>= _) = _
      rw [h1]; exact h2
    · intro p hp
      rw [h5 p (fun e he => hp e (List.mem_cons_of_mem _ he)), lookup_assign, if_neg]
      intro h
      exact hp e List.mem_cons_self (toText_inj h).symm
    · intro pre p s post old' v' heq hpost hold hread
      cases pre with
      | nil =>
        cases heq
        rw [h5 p hpost, lookup_assign, if_pos rfl]
        rw [ho] at hold
        cases hold
        rw [hv] at hread
        cases hread
        rfl
      | cons a pre =>
        cases heq
        exact h6 pre p s post old' v' rfl hpost hold hread

/-- C44 for parameter strings: if each string names a parameter and gives a value of its type, the
parameters named get the value last given, all others stay, and no failure is reported. -/
theorem C44_strings_partial (R : Readers) (fin : J Val) (hf : Configuration fin)
    (kvs : List (Path × Str))
    (hkv : ∀ e ∈ kvs, ':' ∉ toText e.1 ∧ ∃ old v, look e.1 fin = some (.leaf (some old)) ∧
      readAs R old e.2 = .ok (some v) ∧ sameType old v) :
    ∃ r, updatefromstring R fin (kvs.map assignment) = .ok (0, r) ∧ Configuration r ∧
      (∀ pre p s post old v, kvs = pre ++ (p, s) :: post → (∀ e ∈ post, e.1 ≠ p) →
        look p fin = some (.leaf (some old)) → readAs R old s = .ok (some v) →
        look p r = some (.leaf (some v))) ∧
      (∀ p, (∀ e ∈ kvs, e.1 ≠ p) → look p r = look p fin) := by
  have hfinmem : ∀ k v, (flatten fin).lookup k = some v ↔
      ∃ p, k = toText p ∧ part p fin = some (.leaf v) := by
    intro k v
    rw [← (sorted_flatten fin).mem_iff]
    exact mem_flatten hf.noEmpty hf.proper
  obtain ⟨m', h1, h2, h3, h4, h5⟩ := updates_known kvs hkv 0 (flatten fin) (sorted_flatten fin)
    (by
      intro k v h
      obtain ⟨p, h1, h2⟩ := (hfinmem k v).mp h
      exact ⟨p, v, h1, look_eq_leaf.mpr h2⟩)
    (by
      intro p w h
      exact ⟨w, (hfinmem _ _).mpr ⟨p, rfl, look_eq_leaf.mp h⟩, sameType_refl w⟩)
  have hlast : ∀ p, (∃ e ∈ kvs, e.1 = p) → ∃ pre s post, kvs = pre ++ (p, s) :: post ∧
      ∀ e ∈ post, e.1 ≠ p := by
    intro p hp
    clear hkv h1 h4 h5
    induction kvs with
    | nil => obtain ⟨e, he, _⟩ := hp; cases he
    | cons a l ih =>
      by_cases hl : ∃ e ∈ l, e.1 = p
      · obtain ⟨pre, s, post, h, h'⟩ := ih hl
        exact ⟨a :: pre, s, post, by rw [h]; rfl, h'⟩
      · obtain ⟨e, he, hep⟩ := hp
        rcases List.mem_cons.mp he with rfl | he
        · exact ⟨[], e.2, l, by rw [← hep]; rfl, fun e' he' h => hl ⟨e', he', h⟩⟩
        · exact absurd ⟨e, he, hep⟩ hl
  have hval : ∀ p w, look p fin = some (.leaf w) → ∃ v, m'.lookup (toText p) = some v := by
    intro p w hw
    by_cases hp : ∃ e ∈ kvs, e.1 = p
    · obtain ⟨pre, s, post, h, h'⟩ := hlast p hp
      obtain ⟨_, old, v, ho, hv, _⟩ := hkv (p, s) (by rw [h]; simp)
      exact ⟨_, h5 pre p s post old v h h' ho hv⟩
    · rw [h4 p (fun e he h => hp ⟨e, he, h⟩)]
      exact ⟨w, (hfinmem _ _).mpr ⟨p, rfl, look_eq_leaf.mp hw⟩⟩
  obtain ⟨r, hr1, hr2, hr3, hr4⟩ := unflatten_configuration hf h2
    (by
      intro k v hkv
      obtain ⟨p, w, h, h'⟩ := h3 k v ((h2.mem_iff).mp hkv)
      exact ⟨p, w, h, look_eq_leaf.mp h'⟩)
    (by
      intro p w hw
      obtain ⟨v, hv⟩ := hval p w (look_eq_leaf.mpr hw)
      exact ⟨v, (h2.mem_iff).mpr hv⟩)
  refine ⟨r, ?_, hr2, ?_, ?_⟩
  · unfold updatefromstring
    rw [h1]
    show (unflatten m').map _ = _
    rw [hr1]; rfl
  · intro pre p s post old v h h' ho hv
    exact hr3 p _ ((h2.mem_iff).mpr (h5 pre p s post old v h h' ho hv))
  · intro p hp
    by_cases hl : ∃ w, look p fin = some (.leaf w)
    · obtain ⟨w, hw⟩ := hl
      rw [hw]
      apply hr3 p w
      rw [h2.mem_iff, h4 p hp]
      exact (hfinmem _ _).mpr ⟨p, rfl, look_eq_leaf.mp hw⟩
    · exact hr4 p (fun w hw => hl ⟨w, hw⟩)

/-- A string without separator or with an unknown key. -/
def BadString (fin : J V) (kv : Str) : Prop :=
  ':' ∉ kv ∨ ∃ k s, kv = k ++ ':' :: s ∧ ':' ∉ k ∧
    ∀ p w, k = toText p → look p fin ≠ some (.leaf (some w))

theorem updateOne_count {R : Readers} {st st' : Nat × FlatMap Val} {kv : Str}
    (h : updateOne R st kv = .ok st') : st.1 ≤ st'.1 := by
  unfold updateOne at h
  split at h
  · cases h; simp
  · split at h
    · cases h; simp
    · cases h; simp
    · cases h; simp
    · cases hh : R.stoi _ with
      | error f => rw [hh] at h; cases h
      | ok i => rw [hh] at h; cases h; simp
    · cases hh : R.stod _ with
      | error f => rw [hh] at h; cases h
      | ok i => rw [hh] at h; cases h; simp
    · cases hh : R.json _ with
      | error f => rw [hh] at h; cases h
      | ok i => rw [hh] at h; cases h; simp

/-- A key which is unknown stays so. -/
theorem updateOne_unknown {R : Readers} {st st' : Nat × FlatMap Val} {kv k : Str}
    (h : updateOne R st kv = .ok st') (hk : ∀ w, st.2.lookup k ≠ some (some w)) :
    ∀ w, st'.2.lookup k ≠ some (some w) := by
  have key : ∀ {k' v} {old : Val}, st.2.lookup k' = some (some old) →
      ∀ w, (assign k' v st.2).lookup k ≠ some (some w) := by
    intro k' v old ho w
    rw [lookup_assign, if_neg]
    · exact hk w
    · rintro rfl; exact hk _ ho
  unfold updateOne at h
  split at h
  · cases h; exact hk
  · split at h
    · cases h
      intro w
      rw [lookup_assign]
      split
      · simp
      · exact hk w
    · cases h; exact hk
    · rename_i hl; cases h; exact key hl
    · rename_i hl
      cases hh : R.stoi _ with
      | error f => rw [hh] at h; cases h
      | ok i => rw [hh] at h; cases h; exact key hl
    · rename_i hl
      cases hh : R.stod _ with
      | error f => rw [hh] at h; cases h
      | ok i => rw [hh] at h; cases h; exact key hl
    · rename_i hl
      cases hh : R.json _ with
      | error f => rw [hh] at h; cases h
      | ok i => rw [hh] at h; cases h; exact key hl

/-- C44 for parameter strings: a string without separator or with an unknown key is counted as a
failure, unless an exception is thrown. -/
theorem C44_strings_fail (R : Readers) (fin : J Val) (hf : Configuration fin) (kvs : List Str)
    (kv : Str) (hkv : kv ∈ kvs) (hbad : BadString fin kv) (n : Nat) (r : J Val)
    (h : updatefromstring R fin kvs = .ok (n, r)) : 0 < n := by
  unfold updatefromstring at h
  cases hfold : kvs.foldlM (updateOne R) (0, flatten fin) with
  | error f => rw [hfold] at h; cases h
  | ok st =>
    rw [hfold] at h
    have hn : n = st.1 := by
      replace h : (unflatten st.2).map (fun j => (st.1, j)) = .ok (n, r) := h
      cases hu : unflatten st.2 with
      | error f => rw [hu] at h; cases h
      | ok j => rw [hu] at h; cases h; rfl
    rw [hn]
    have hunk : ∀ k s, kv = k ++ ':' :: s → ':' ∉ k →
        (∀ p w, k = toText p → look p fin ≠ some (.leaf (some w))) →
        ∀ w, (flatten fin).lookup k ≠ some (some w) := by
      intro k s _ _ h w hw
      rw [← (sorted_flatten fin).mem_iff, mem_flatten hf.noEmpty hf.proper] at hw
      obtain ⟨p, h1, h2⟩ := hw
      exact h p w h1 (look_eq_leaf.mpr h2)
    clear h hn
    have hbad' : ':' ∉ kv ∨ ∃ k s, kv = k ++ ':' :: s ∧ ':' ∉ k ∧
        ∀ w, ((0 : Nat), flatten fin).2.lookup k ≠ some (some w) := by
      rcases hbad with h | ⟨k, s, h1, h2, h3⟩
      · exact Or.inl h
      · exact Or.inr ⟨k, s, h1, h2, hunk k s h1 h2 h3⟩
    clear hunk hbad
    generalize ((0 : Nat), flatten fin) = st0 at hfold hbad'
    clear hf
    have hmono : ∀ (l : List Str) (st st' : Nat × FlatMap Val),
        l.foldlM (updateOne R) st = .ok st' → st.1 ≤ st'.1 := by
      intro l
      induction l with
      | nil => intro st st' h; cases h; exact Nat.le_refl _
      | cons a l ih =>
        intro st st' h
        rw [List.foldlM_cons] at h
        obtain ⟨st1, h1, h2⟩ := bind_ok_iff.mp h
        exact Nat.le_trans (updateOne_count h1) (ih _ _ h2)
    induction kvs generalizing st0 with
    | nil => cases hkv
    | cons a l ih =>
      rw [List.foldlM_cons] at hfold
      obtain ⟨st1, h1, h2⟩ := bind_ok_iff.mp hfold
      rcases List.mem_cons.mp hkv with rfl | hkv
      · have : 0 < st1.1 := by
          unfold updateOne at h1
          rcases hbad' with h | ⟨k, s, h3, h4, h5⟩
          · rw [splitSep_none h] at h1
            cases h1; simp
          · rw [h3, splitSep_append h4] at h1
            simp only at h1
            cases hl : st0.2.lookup k with
            | none => rw [hl] at h1; cases h1; simp
            | some v =>
              cases v with
              | none => rw [hl] at h1; cases h1; simp
              | some w => exact absurd hl (h5 w)
        exact Nat.lt_of_lt_of_le this (hmono _ _ _ h2)
      · refine ih hkv st1 h2 ?_
        rcases hbad' with h | ⟨k, s, h3, h4, h5⟩
        · exact Or.inl h
        · exact Or.inr ⟨k, s, h3, h4, updateOne_unknown h1 h5⟩

/-- Readers for the examples. -/
def jsonReaders : Readers where
  stoi s := .ok (digitsVal 10 s)
  stod s := .ok (digitsVal 10 s)
  json s := if s = "true".toList then .ok (some (.bool true)) else .ok (some (.bool false))

example : ∃ r, updatefromstring jsonReaders jsonFin
      ["/name:b:c".toList, "/on:true".toList, "/on:false".toList] = .ok (0, r) ∧
    look ["name".toList] r = some (.leaf (some (.str "b:c".toList))) ∧
    look ["on".toList] r = some (.leaf (some (.bool false))) ∧
    look ["grid".toList] r = look ["grid".toList] jsonFin := by
  obtain ⟨r, h1, _, h3, h4⟩ := C44_strings_partial jsonReaders jsonFin jsonFin_configuration
    [(["name".toList], "b:c".toList), (["on".toList], "true".toList),
      (["on".toList], "false".toList)] (by
      intro e he
      simp only [List.mem_cons, List.not_mem_nil, or_false] at he
      rcases he with rfl | rfl | rfl
      · exact ⟨by decide, .str "a".toList, .str "b:c".toList, rfl, rfl, trivial⟩
      · exact ⟨by decide, .bool true, .bool true, rfl, rfl, trivial⟩
      · exact ⟨by decide, .bool true, .bool false, rfl, rfl, trivial⟩)
  refine ⟨r, h1, ?_, ?_, ?_⟩
  · exact h3 [] _ _ _ (.str "a".toList) _ rfl (by
      intro e he
      simp only [List.mem_cons, List.not_mem_nil, or_false] at he
      rcases he with rfl | rfl <;> decide) rfl rfl
  · exact h3 [_, _] _ _ [] (.bool true) _ rfl (by simp) rfl rfl
  · apply h4
    intro e he
    simp only [List.mem_cons, List.not_mem_nil, or_false] at he
    rcases he with rfl | rfl | rfl <;> decide

example : BadString jsonFin "/nam:b".toList :=
  Or.inr ⟨"/nam".toList, "b".toList, rfl, by decide, by
    intro p w hp h
    have : ["nam".toList] = p := toText_inj (show toText ["nam".toList] = toText p from hp)
    subst this
    cases h⟩

/-- Did a computation throw? -/
def threw {α : Type} (r : Res α) : Bool :=
  match r with
  | .error .throws => true
  | _ => false

/-- C44 fails for an unknown key which is no pointer: an exception is thrown, and nothing is
counted or set. -/
theorem C44_strings_violated :
    threw (updatefromstring jsonReaders jsonFin ["name:b".toList]) = true := by
  decide +kernel

end RSVS.Props
