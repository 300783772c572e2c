import Verif.Lemmas.Config
import Verif.Props.MeshIO

/-!
# Properties of the command line, of the parameters and of the outputs
-/

namespace RSVS.Props

open RSVS RSVS.Spec RSVS.Config RSVS.Text RSVS.MeshIO

/-! ## C43 -/

/-- What is done if the command line is accepted. -/
theorem execution_cases {o : Options} {a : Action} (h : execution o = .ok a) :
    (∃ c, a = .exits c) ∨ ∃ n : Nat,
      (o.loadConfig > 0 → o.load = .ok ()) ∧ (o.param > 0 → o.params = .ok n) ∧
      (o.param = 0 → n = 0) ∧ o.help = 0 ∧ ¬ (o.noexec > 0 ∧ o.exec > 0) ∧
      ¬ ((o.exec > 0 ∨ o.interactive > 0) ∧ o.test > 0) ∧ ¬ (o.noexec > 0 ∧ o.test > 0) ∧
      act (if n > 0 then -2 else o.flow) o.testCase = .ok a := by
  unfold execution commandLine at h
  split at h
  · left; exact ⟨_, (Except.ok.inj h).symm⟩
  rename_i h1
  split at h
  · left; exact ⟨_, (Except.ok.inj h).symm⟩
  rename_i h2
  split at h
  · left; exact ⟨_, (Except.ok.inj h).symm⟩
  rename_i h3
  split at h
  · left; exact ⟨_, (Except.ok.inj h).symm⟩
  rename_i h4
  right
  obtain ⟨p, hp, h⟩ := bind_ok_iff.mp h
  obtain ⟨u, hu, hp⟩ := bind_ok_iff.mp hp
  obtain ⟨n, hn, hp⟩ := bind_ok_iff.mp hp
  have hp := Except.ok.inj hp
  subst hp
  refine ⟨n, ?_, ?_, ?_, by omega, h2, h3, h4, h⟩
  · intro hl; rw [if_pos hl] at hu; exact hu
  · intro hl; rw [if_pos hl] at hn; exact hn
  · intro hl
    rw [if_neg (by omega)] at hn
    exact (Except.ok.inj hn).symm

theorem act_optimise {f : Int} {t : String} (h : act f t = .ok .optimise) : f = 1 := by
  unfold act at h
  split at h
  · split at h
    · assumption
    · split at h <;> cases h
  · split at h
    · split at h <;> cases h
    · cases h

theorem act_interact {f : Int} {t : String} (h : act f t = .ok .interact) : f = 2 := by
  unfold act at h
  split at h
  · split at h
    · cases h
    · split at h
      · assumption
      · cases h
  · split at h
    · split at h <;> cases h
    · cases h

theorem act_tests {f : Int} {t u : String} (h : act f t = .ok (.tests u)) : f = -3 ∧ u = t := by
  unfold act at h
  split at h
  · split at h
    · cases h
    · split at h <;> cases h
  · split at h
    · split at h
      · refine ⟨by assumption, ?_⟩
        have := Except.ok.inj h
        injection this with h1
        exact h1.symm
      · cases h
    · cases h

/-- What is executed was asked for, and nothing failed. -/
theorem executes_needs {o : Options} {a : Action} (h : execution o = .ok a) (ha : Executes a) :
    o.help = 0 ∧ (o.noexec > 0 → o.exec = 0 ∧ o.interactive > 0) ∧ o.test = 0 ∧
    (o.interactive > 0 ∨ o.exec > 0 ∨ o.useConfig > 0 ∨ o.loadConfig > 0 ∨ o.param > 0) ∧
    (o.param > 0 → o.params = .ok 0) ∧ (o.loadConfig > 0 → o.load = .ok ()) ∧
    (a = .interact ↔ o.interactive > 0) := by
  rcases execution_cases h with ⟨c, rfl⟩ | ⟨n, hl, hp, hp0, h1, h2, h3, h4, hact⟩
  · rcases ha with h | h <;> cases h
  have hn : n = 0 ∧ (o.flow = 1 ∧ a = .optimise ∨ o.flow = 2 ∧ a = .interact) := by
    by_cases h0 : n > 0
    · rw [if_pos h0] at hact
      rcases ha with rfl | rfl
      · have := act_optimise hact; omega
      · have := act_interact hact; omega
    · rw [if_neg h0] at hact
      refine ⟨by omega, ?_⟩
      rcases ha with rfl | rfl
      · exact Or.inl ⟨act_optimise hact, rfl⟩
      · exact Or.inr ⟨act_interact hact, rfl⟩
  obtain ⟨rfl, hf⟩ := hn
  refine ⟨h1, ?_, ?_, ?_, hp, hl, ?_⟩
  · intro hx
    refine ⟨by omega, ?_⟩
    unfold Options.flow at hf
    repeat' split at hf
    all_goals omega
  · unfold Options.flow at hf
    repeat' split at hf
    all_goals omega
  · unfold Options.flow at hf
    repeat' split at hf
    all_goals omega
  · unfold Options.flow at hf
    rcases hf with ⟨hf, rfl⟩ | ⟨hf, rfl⟩
    · simp only [reduceCtorEq, false_iff]
      repeat' split at hf
      all_goals omega
    · simp only [true_iff]
      repeat' split at hf
      all_goals omega

/-- C43, first part: asking for no execution without asking for the viewer never executes. -/
theorem C43_noexec_partial (o : Options) (h : o.noexec > 0) (hi : o.interactive = 0) (a : Action)
    (ha : execution o = .ok a) : ¬ Executes a := by
  intro hx
  have := (executes_needs ha hx).2.1 h
  omega

example : execution { noexec := 1, useConfig := 1 } = .ok (.writesConfig false) := by decide +kernel

/-- C43, second part: asking for tests never executes, and the tests run are those asked for
last. -/
theorem C43_tests (o : Options) (h : o.test > 0) (a : Action) (ha : execution o = .ok a) :
    ¬ Executes a ∧ ∀ t, a = .tests t → o.testString.getLastD "" = t := by
  refine ⟨?_, ?_⟩
  · intro hx
    have := (executes_needs ha hx).2.2.1
    omega
  · rintro t rfl
    rcases execution_cases ha with ⟨c, hc⟩ | ⟨n, hl, hp, hp0, h1, h2, h3, h4, hact⟩
    · cases hc
    · rw [(act_tests hact).2, Options.testCase, if_pos (by omega)]

example : execution { test := 1, testString := ["all", "short"], param := 1 } =
    .ok (.tests "short") := by
  decide +kernel

/-- C43, second part, converse: tests are run only if they are asked for. -/
theorem C43_tests_only (o : Options) (a : Action) (ha : execution o = .ok a)
    (ht : RunsTests a) : o.test > 0 := by
  obtain ⟨t, rfl⟩ := ht
  rcases execution_cases ha with ⟨c, hc⟩ | ⟨n, hl, hp, hp0, h1, h2, h3, h4, hact⟩
  · cases hc
  · have := (act_tests hact).1
    unfold Options.flow at this
    repeat' split at this
    all_goals omega

example : execution { test := 1, testString := ["new"] } = .ok (.tests "new") ∧
    RunsTests (.tests "new") := ⟨by decide +kernel, _, rfl⟩

/-- C43, third part: contradictory requests are rejected before any parameter is read. -/
theorem C43_rejected (o : Options) (hh : o.help = 0)
    (h : (o.noexec > 0 ∧ o.exec > 0) ∨ (o.test > 0 ∧ (o.exec > 0 ∨ o.interactive > 0 ∨
      o.noexec > 0))) : execution o = .ok (.exits (-1)) := by
  have : commandLine o = .ok (.exits (-1)) := by
    unfold commandLine
    rw [if_neg (by omega)]
    split
    · rfl
    split
    · rfl
    split
    · rfl
    · omega
  unfold execution
  rw [this]
  rfl

example : execution { noexec := 1, exec := 2 } = .ok (.exits (-1)) ∧
    execution { test := 1, interactive := 1, testString := ["all"] } = .ok (.exits (-1)) := by
  decide +kernel

/-- C43, fourth part: without options nothing is executed; the configuration is written. -/
theorem C43_nothing (o : Options) (hh : o.help = 0) (h1 : o.interactive = 0) (h2 : o.exec = 0)
    (h3 : o.test = 0) (h4 : o.useConfig = 0) (h5 : o.loadConfig = 0) (h6 : o.param = 0) :
    execution o = .ok (.writesConfig false) := by
  have hc : commandLine o = .ok (.flow o.flow o.testCase) := by
    unfold commandLine
    rw [if_neg (by omega), if_neg (by omega), if_neg (by omega), if_neg (by omega),
      if_neg (c := o.loadConfig > 0) (by omega), if_neg (c := o.param > 0) (by omega)]
    rfl
  have hf : o.flow = -1 ∨ o.flow = 0 := by
    unfold Options.flow
    repeat' split
    all_goals omega
  unfold execution
  rw [hc]
  show act _ _ = _
  unfold act
  rcases hf with hf | hf <;> rw [hf] <;> rfl

example : execution {} = .ok (.writesConfig false) ∧
    execution { noexec := 1 } = .ok (.writesConfig false) := by decide +kernel

/-- C43, fifth part: a parameter which fails, or a configuration which cannot be read, prevents
execution. -/
theorem C43_failed (o : Options)
    (h : (o.param > 0 ∧ o.params ≠ .ok 0) ∨ (o.loadConfig > 0 ∧ o.load ≠ .ok ())) (a : Action)
    (ha : execution o = .ok a) : ¬ Executes a := by
  intro hx
  have h3 := executes_needs ha hx
  rcases h with h | h
  · exact h.2 (h3.2.2.2.2.1 h.1)
  · exact h.2 (h3.2.2.2.2.2.1 h.1)

example : execution { exec := 1, param := 1, params := .ok 1 } = .ok (.writesConfig true) ∧
    execution { exec := 1, param := 1 } = .ok .optimise := by decide +kernel

/-- C43, the other direction: what is asked for without contradiction and without failure is
executed, with the viewer exactly if that is asked for. -/
theorem C43_executes (o : Options) (hh : o.help = 0) (hn : o.noexec = 0) (ht : o.test = 0)
    (h : o.interactive > 0 ∨ o.exec > 0 ∨ o.useConfig > 0 ∨ o.loadConfig > 0 ∨ o.param > 0)
    (hp : o.params = .ok 0) (hl : o.load = .ok ()) :
    execution o = .ok (if o.interactive > 0 then .interact else .optimise) := by
  have hc : commandLine o = .ok (.flow o.flow o.testCase) := by
    unfold commandLine
    rw [if_neg (by omega), if_neg (by omega), if_neg (by omega), if_neg (by omega), hl, hp,
      ite_self, ite_self]
    rfl
  unfold execution
  rw [hc]
  show act _ _ = _
  have hf : o.flow = if o.interactive > 0 then 2 else 1 := by
    unfold Options.flow
    repeat' split
    all_goals omega
  rw [hf]
  split <;> rfl

example : execution { interactive := 1, exec := 1 } = .ok .interact ∧
    execution { loadConfig := 1 } = .ok .optimise := by decide +kernel

/-- C43 fails: no execution and the viewer asked for together are accepted, and the viewer
runs the optimisation. -/
theorem C43_violated :
    ∃ o : Options, o.noexec > 0 ∧ execution o = .ok .interact ∧ Executes .interact :=
  ⟨{ noexec := 1, interactive := 1 }, by decide, by decide +kernel, Or.inr rfl⟩

/-! ## C45 -/

theorem append_ne_empty (a b : String) (h : b ≠ "") : a ++ b ≠ "" := by
  intro h1
  apply h
  have h2 := congrArg String.toList h1
  rw [String.toList_append] at h2
  exact String.toList_inj.mp (List.append_eq_nil_iff.mp h2).2

theorem append_ne_empty' (a b : String) (h : a ≠ "") : a ++ b ≠ "" := by
  intro h1
  apply h
  have h2 := congrArg String.toList h1
  rw [String.toList_append] at h2
  exact String.toList_inj.mp (List.append_eq_nil_iff.mp h2).1

theorem append_ne_self (a b : String) (h : b ≠ "") : a ++ b ≠ a := by
  intro h1
  apply h
  have h2 := congrArg String.toList h1
  rw [String.toList_append] at h2
  exact String.toList_inj.mp (List.append_right_eq_self.mp h2)

/-- What a preparation leaves behind. -/
theorem IoOut.prepare_fields (time : String → String) (p : IoOut) :
    (p.prepare time).pathpattern = p.pathpattern ∧
    (p.prepare time).basenamepattern = p.basenamepattern ∧
    (p.prepare time).pathoutdir ≠ "" ∧ (p.prepare time).outdir ≠ "" ∧
    (p.outdir ≠ "" → (p.prepare time).outdir = p.outdir) := by
  unfold IoOut.prepare
  by_cases h1 : p.pathoutdir = "" <;> by_cases h2 : p.pathpattern = "" <;>
    by_cases h3 : p.basenamepattern = "" <;> by_cases h4 : p.outdir = "" <;>
    simp [h1, h2, h3, h4]

/-- A further preparation. -/
theorem IoOut.prepare_again (time : String → String) (p : IoOut) (h1 : p.pathoutdir ≠ "")
    (h2 : p.outdir ≠ "") :
    p.prepare time = { p with
      pathoutdir := if p.pathpattern = "" then p.pathoutdir
        else p.pathoutdir ++ "/" ++ time p.pathpattern,
      basenameoutdir := if p.basenamepattern = "" then p.basenameoutdir
        else p.basenameoutdir ++ time p.basenamepattern,
      pattern := if p.basenamepattern = "" then p.pattern else time p.basenamepattern } := by
  unfold IoOut.prepare
  by_cases h3 : p.pathpattern = "" <;> by_cases h4 : p.basenamepattern = "" <;>
    simp [h1, h2, h3, h4]
  obtain ⟨a, b, c, d, e, f⟩ := p
  simp only at h3 h4
  rw [h3, h4]

/-- What a preparation of the files leaves behind. -/
theorem Files.prepare_fields {time : String → String} {p q : Files} (h : p.prepare time = .ok q) :
    q.ioin = p.ioin ∧ p.ioin.check = .ok () ∧ q.appcasename2outdir = false ∧
    q.ioout.pathpattern = p.ioout.pathpattern ∧
    q.ioout.basenamepattern = p.ioout.basenamepattern ∧
    q.ioout.pathoutdir ≠ "" ∧ q.ioout.outdir ≠ "" := by
  obtain ⟨u, hu, h⟩ := bind_ok_iff.mp h
  obtain ⟨f1, f2, f3, f4, _⟩ := IoOut.prepare_fields time p.ioout
  by_cases h1 : p.appcasename2outdir = true
  · rw [if_pos h1] at h
    have h := Except.ok.inj h
    subst h
    exact ⟨rfl, hu, rfl, f1, f2, f3, append_ne_empty' _ _ f4⟩
  · rw [if_neg h1] at h
    have h := Except.ok.inj h
    subst h
    exact ⟨rfl, hu, by simpa using h1, f1, f2, f3, f4⟩

/-- The second preparation. -/
theorem Files.prepare_again {time time' : String → String} {p q : Files}
    (h : p.prepare time = .ok q) :
    q.prepare time' = .ok { q with ioout := q.ioout.prepare time' } := by
  obtain ⟨f1, f2, f3, _, _, _, _⟩ := Files.prepare_fields h
  show q.ioin.check.bind _ = _
  rw [f1, f2]
  show (if q.appcasename2outdir = true then _ else _) = _
  rw [if_neg (by rw [f3]; simp)]

/-- C45 for output parameters without time patterns: the second preparation changes nothing,
whatever the times of the two. -/
theorem C45_partial (time time' : String → String) (p q : Files) (h1 : p.ioout.pathpattern = "")
    (h2 : p.ioout.basenamepattern = "") (hq : p.prepare time = .ok q) :
    q.prepare time' = .ok q := by
  obtain ⟨_, _, _, f4, f5, f6, f7⟩ := Files.prepare_fields hq
  rw [Files.prepare_again hq, IoOut.prepare_again time' q.ioout f6 f7, if_pos (f4.trans h1),
    if_pos (f5.trans h2), if_pos (f5.trans h2)]

/-- C45 in general: a second preparation always succeeds, and the output directory, which is
what the program uses, and all inputs and patterns stay as they are. -/
theorem C45_outdir_partial (time time' : String → String) (p q : Files)
    (hq : p.prepare time = .ok q) :
    ∃ r, q.prepare time' = .ok r ∧ r.ioout.outdir = q.ioout.outdir ∧ r.ioin = q.ioin ∧
      r.appcasename2outdir = q.appcasename2outdir ∧
      r.ioout.pathpattern = q.ioout.pathpattern ∧
      r.ioout.basenamepattern = q.ioout.basenamepattern := by
  obtain ⟨_, _, _, _, _, f6, f7⟩ := Files.prepare_fields hq
  refine ⟨_, Files.prepare_again hq, ?_⟩
  rw [IoOut.prepare_again time' q.ioout f6 f7]
  exact ⟨rfl, rfl, rfl, rfl, rfl⟩

example : ({ ioin := { casename := "wing" }, ioout := { pathpattern := "", basenamepattern := "" } }
      : Files).prepare id =
    .ok { appcasename2outdir := false, ioin := { casename := "wing" },
          ioout := { pathpattern := "", basenamepattern := "", outdir := "../out/rsvs3d_wing",
                     pattern := "wing" } } := by
  decide +kernel

/-- C45 fails for every configuration with a pattern for the path: the second preparation
appends the time again. -/
theorem C45_violated (time time' : String → String) (p q : Files)
    (h1 : p.ioout.pathpattern ≠ "") (hq : p.prepare time = .ok q) : q.prepare time' ≠ .ok q := by
  obtain ⟨_, _, _, f4, f5, f6, f7⟩ := Files.prepare_fields hq
  rw [Files.prepare_again hq, IoOut.prepare_again time' q.ioout f6 f7]
  intro h
  have h2 := congrArg (fun x : Files => x.ioout.pathoutdir) (Except.ok.inj h)
  replace h2 : (if q.ioout.pathpattern = "" then q.ioout.pathoutdir
    else q.ioout.pathoutdir ++ "/" ++ time' q.ioout.pathpattern) = q.ioout.pathoutdir := h2
  rw [if_neg (by rw [f4]; exact h1), String.append_assoc] at h2
  exact append_ne_self _ _ (append_ne_empty' _ _ (by decide)) h2

/-- The default configuration is an example; it also loses the name of the case. -/
theorem C45_default_violated (time : String → String) :
    ∃ q r, ({ ioin := { casename := "wing" } } : Files).prepare time = .ok q ∧
      q.prepare time = .ok r ∧ r ≠ q ∧
      q.ioout.pattern = time "%y%m%dT%H%M%S_" ++ "wing" ∧
      r.ioout.pattern = time "%y%m%dT%H%M%S_" := by
  have hq : ({ ioin := { casename := "wing" } } : Files).prepare time = .ok _ := rfl
  have h := Files.prepare_again (time' := time) hq
  refine ⟨_, _, hq, h, ?_, rfl, rfl⟩
  intro he
  rw [he] at h
  exact C45_violated time time _ _ (by decide) hq h

/-! ## C47 -/

/-- C47: in two and three dimensions the targets come from the file if that is active; else
they are left alone if the generation is active; else they are the constant if that is active;
else they are left alone. -/
theorem C47_priority (rd : ℚ → ℚ) (c : FillConf) (m : Mesh)
    (hdim : m.meshDim = 2 ∨ m.meshDim = 3) :
    (c.fileActive = true → c.file = none → chooseFill rd c m = .error .throws) ∧
    (c.fileActive = true → ∀ l s, c.file = some s → Layout l s →
      chooseFill rd c m = .ok (withTargets (repeated (l.map (fun n => rd n.value))) m)) ∧
    (c.fileActive = true → ∀ s, c.file = some s → chooseFill rd c m = loadTargetFill rd m s) ∧
    (c.fileActive = false → c.makeActive = true → chooseFill rd c m = .ok m) ∧
    (c.fileActive = false → c.makeActive = false → c.cstActive = true →
      chooseFill rd c m = .ok (withTargets (fun _ => c.cst) m)) ∧
    (c.fileActive = false → c.makeActive = false → c.cstActive = false →
      chooseFill rd c m = .ok m) := by
  have hload : c.fileActive = true → ∀ s, c.file = some s →
      chooseFill rd c m = loadTargetFill rd m s := by
    intro h1 s h2
    unfold chooseFill
    rcases hdim with h | h <;> simp [h, h1, h2]
  refine ⟨?_, ?_, hload, ?_, ?_, ?_⟩
  · intro h1 h2
    unfold chooseFill
    rcases hdim with h | h <;> simp [h, h1, h2]
  · intro h1 l s h2 h3
    rw [hload h1 s h2]
    have := C46_cyclic_partial rd h3 (w := []) (by unfold Blank; simp) m hdim (Or.inl rfl)
    rwa [List.append_nil] at this
  · intro h1 h2
    unfold chooseFill
    rcases hdim with h | h <;> simp [h, h1, h2]
  · intro h1 h2 h3
    have hmap : ∀ {α : Type} (f : α → α) (l : List α), l.mapIdx (fun _ v => f v) = l.map f := by
      intro α f l
      apply List.ext_getElem <;> simp
    unfold chooseFill withTargets
    rcases hdim with h | h <;> simp [h, h1, h2, h3, ← hmap]
  · intro h1 h2 h3
    unfold chooseFill
    rcases hdim with h | h <;> simp [h, h1, h2, h3]

/-- C47 in other dimensions: nothing is changed. -/
theorem C47_other (rd : ℚ → ℚ) (c : FillConf) (m : Mesh) (h2 : m.meshDim ≠ 2)
    (h3 : m.meshDim ≠ 3) : chooseFill rd c m = .ok m := by
  unfold chooseFill
  rw [if_neg h3, if_neg h2]

example : ∀ rd, (chooseFill rd { cstActive := true, cst := 3 / 4 } fillMesh).map
    (fun m => m.surfs.map Surf.target) = .ok [3 / 4, 3 / 4, 3 / 4] := fun _ => rfl

example : ∀ rd, (chooseFill rd { makeActive := true, cstActive := true, cst := 3 / 4 }
    fillMesh) = .ok fillMesh := fun _ => rfl

/-! ## C56 -/

theorem mem_ite' {x : Out} {y : Out} {p : Prop} [Decidable p] :
    x ∈ (if p then [y] else []) ↔ p ∧ x = y := by
  split <;> simp_all

theorem printBaseSnake_iff (l : Int) : printBaseSnake l = true ↔ l = 2 ∨ l = 5 ∨ l = 7 := by
  unfold printBaseSnake; simp [or_assoc]

theorem printFullSnake_iff (l : Int) : printFullSnake l = true ↔ l = 3 ∨ l = 4 ∨ 7 < l := by
  show (l == 3 || l == 4 || decide ((7 : Int) < l)) = true ↔ _
  simp [or_assoc]

theorem printGradientsSnake_iff (l : Int) :
    printGradientsSnake l = true ↔ l = 4 ∨ l = 5 ∨ l = 7 ∨ 7 < l := by
  show (l == 4 || l == 5 || l == 7 || decide ((7 : Int) < l)) = true ↔ _
  simp [or_assoc]

theorem printVectorSnake_iff (l : Int) : printVectorSnake l = true ↔ l = 6 ∨ l = 7 ∨ 7 < l := by
  show (l == 6 || l == 7 || decide ((7 : Int) < l)) = true ↔ _
  simp [or_assoc]

theorem mem_stepOutputs (l : Int) (x : Out) : x ∈ stepOutputs l ↔
    match x with
    | .restart => False
    | .log => 0 < l
    | .snake => l = 2 ∨ l = 5 ∨ l = 7
    | .full => l = 3 ∨ l = 4 ∨ 7 < l
    | .gradients => l = 4 ∨ l = 5 ∨ l = 7 ∨ 7 < l
    | .vectors => l = 6 ∨ l = 7 ∨ 7 < l := by
  unfold stepOutputs
  simp only [List.mem_append, mem_ite', printBaseSnake_iff, printFullSnake_iff,
    printGradientsSnake_iff, printVectorSnake_iff]
  cases x <;> simp

theorem mem_finalOutputs (l o : Int) (x : Out) : x ∈ finalOutputs l o ↔
    match x with
    | .restart => 1 < finalLevel l o
    | x => x ∈ stepOutputs (finalLevel l o) := by
  unfold finalOutputs stepOutputs
  simp only [List.mem_append, mem_ite']
  cases x <;> simp

/-- C56, first part: the levels up to 3 select the documented outputs; a negative level counts
as 0. -/
theorem C56_documented (l : Int) (h : l ≤ 3) : stepOutputs l = documented l.toNat := by
  by_cases h0 : l ≤ 0
  · have : l.toNat = 0 := by omega
    rw [this]
    have h1 : ∀ x, x ∉ stepOutputs l := by
      intro x hx
      rw [mem_stepOutputs] at hx
      cases x <;> simp only at hx <;> omega
    exact List.eq_nil_iff_forall_not_mem.mpr h1
  · have : l = 1 ∨ l = 2 ∨ l = 3 := by omega
    rcases this with rfl | rfl | rfl <;> rfl

/-- C56, the final outputs: exactly which levels of logging and output lose in the final output
something which every step writes. -/
theorem C56_final_partial (l o : Int) : Covers (finalOutputs l o) (stepOutputs l) ↔
    ¬ ((l = 2 ∧ o = 6) ∨ ((l = 3 ∨ l = 4) ∧ 5 ≤ o ∧ o ≤ 7) ∨ (l = 5 ∧ (o < 4 ∨ o = 6))) := by
  have hf : finalLevel l o = if l = 5 then o else max o l := by
    unfold finalLevel
    split <;> simp_all
  unfold Covers
  constructor
  · intro h
    have h1 := h .snake
    have h2 := h .full
    have h3 := h .gradients
    simp only [mem_finalOutputs, mem_stepOutputs, hf] at h1 h2 h3
    simp only [reduceCtorEq, false_and, or_false, true_and] at h1 h2 h3
    split at h1 <;> simp_all <;> omega
  · intro h x hx
    rw [mem_stepOutputs] at hx
    simp only [mem_finalOutputs, mem_stepOutputs, hf]
    cases x <;> simp only [reduceCtorEq, false_and, or_false, true_and] at hx ⊢ <;>
      split <;> omega

/-- C56, the final outputs are those of a step at the higher of both levels, with the restart
files from level 2 on. -/
theorem C56_level_partial (l o : Int) (h : l ≠ 5) (x : Out) :
    x ∈ finalOutputs l o ↔ x ∈ stepOutputs (max o l) ∨ (x = .restart ∧ 1 < max o l) := by
  have hf : finalLevel l o = max o l := by
    unfold finalLevel; rw [if_pos h]
  rw [mem_finalOutputs, hf]
  cases x <;> simp [mem_stepOutputs]

/-- C56 fails: with logging at level 5 and output at level 2 the final output has no gradients,
although each step writes them. -/
theorem C56_violated : Out.gradients ∈ stepOutputs 5 ∧ Out.gradients ∉ finalOutputs 5 2 ∧
    Out.snake ∈ stepOutputs 2 ∧ Out.snake ∉ finalOutputs 2 6 ∧ Out.full ∉ finalOutputs 2 6 := by
  decide

/-! ## C58 -/

/-- C58 for a template whose marker is on a line which ends with a new line: only the rest of
that line from the first marker on is replaced. -/
theorem C58_marker_partial (m new a c rest : Str) (hm : '\n' ∉ m) (hc : '\n' ∉ c)
    (hfirst : FirstAt m (a ++ m ++ c ++ '\n' :: rest) a) :
    writeModified m new ((a ++ m ++ c ++ '\n' :: rest).length + 1)
      (a ++ m ++ c ++ '\n' :: rest) = .ok (a ++ new ++ '\n' :: rest) := by
  rw [writeModified_found hm _ (Nat.lt_succ_self _) rfl hfirst hc]
  · simp
  · intro x r h; exact (List.cons.inj h).1.symm

/-- C58 for a template which ends on the line of the marker: a new line is added. -/
theorem C58_last_partial (m new a c : Str) (hm : '\n' ∉ m) (hc : '\n' ∉ c)
    (hfirst : FirstAt m (a ++ m ++ c) a) :
    writeModified m new ((a ++ m ++ c).length + 1) (a ++ m ++ c) = .ok (a ++ new ++ ['\n']) := by
  rw [writeModified_found (rest := []) hm _ (Nat.lt_succ_self _) (by simp) hfirst hc]
  · simp
  · intro x r h; cases h

/-- C58 for a template without the marker: a new line is added at the end. -/
theorem C58_none_partial (m new s : Str) (h : ∀ a, ¬ Occurs m s a) :
    writeModified m new (s.length + 1) s = .ok (s ++ ['\n']) :=
  writeModified_none _ (Nat.lt_succ_self _) h

/-- Every text with the marker is of one of the two forms above. -/
theorem C58_forms (m s : Str) (a : Str) (h : FirstAt m s a) :
    (∃ c rest, '\n' ∉ c ∧ s = a ++ m ++ c ++ '\n' :: rest) ∨ (∃ c, '\n' ∉ c ∧ s = a ++ m ++ c) := by
  obtain ⟨⟨b, hb⟩, _⟩ := h
  by_cases hn : '\n' ∈ b
  · obtain ⟨l, r, h1, h2⟩ := cut_exists hn
    exact Or.inl ⟨l, r, h2, by rw [hb, h1]; simp⟩
  · exact Or.inr ⟨b, hn, hb⟩

example : writeModified "$!VarSet |LFDSFN1| = ".toList "new".toList 60
    "a\n$!VarSet |LFDSFN1| = 'x'\nb".toList = .ok "a\nnew\nb".toList := by decide +kernel

/-- C58 fails for a template without the marker: the specialised layout differs from it. -/
theorem C58_violated : ∃ m new s : Str, (∀ a, ¬ Occurs m s a) ∧
    writeModified m new (s.length + 1) s = .ok (s ++ ['\n']) ∧ s ++ ['\n'] ≠ s := by
  refine ⟨['m'], [], ['x', '\n'], ?_, by decide +kernel, by decide⟩
  rintro a ⟨b, hb⟩
  have : 'm' ∈ ['x', '\n'] := by rw [hb]; simp
  simp at this

end RSVS.Props
