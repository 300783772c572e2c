import Verif.Model.MeshIO

/-!
# Model of the command line, of the preparation of the parameters and of the output choices

SRCC/src/main.cpp, SRCC/src/parameters.cpp, SRCC/src/rsvs/RSVSintegration.cpp.
-/

namespace RSVS.Config

open RSVS

/-! ## Command line -/

/-- How often each option is given on the command line (`result.count`), and what the reading
of the parameters returns (main.cpp:143-283).  `load` and `params` are the outcomes of
`io::read` on the files of `load-config` and of `io::updatefromstring` on the strings of
`param`: the number of strings which failed, or an exception. -/
structure Options where
  help : Nat := 0
  useConfig : Nat := 0
  loadConfig : Nat := 0
  param : Nat := 0
  noexec : Nat := 0
  exec : Nat := 0
  interactive : Nat := 0
  test : Nat := 0
  /-- the arguments of `test` -/
  testString : List String := []
  load : Res Unit := .ok ()
  params : Res Nat := .ok 0

/-- What `CommandLineParser` does: ends the program, or returns `execFlow` and the test
case. -/
inductive Parsed
  | exits (code : Int)
  | flow (execFlow : Int) (testCase : String)
  deriving DecidableEq, Repr

/-- `execFlow` as set by the options in `parse::CommandLineParser` (main.cpp:143-283), before the
parameters are read. -/
def Options.flow (o : Options) : Int :=
  if o.interactive > 0 then 2
  else if o.exec > 0 then 1
  else if o.test > 0 then -3
  else if o.noexec > 0 then -1
  else if o.useConfig > 0 ∨ o.loadConfig > 0 ∨ o.param > 0 then 1
  else 0

/-- The test case set in `parse::CommandLineParser` (main.cpp:143-283). -/
def Options.testCase (o : Options) : String :=
  if o.interactive = 0 ∧ o.exec = 0 ∧ o.test > 0 then o.testString.getLastD "" else ""

/-- `parse::CommandLineParser` (main.cpp:143-283) after the arguments have been read by
cxxopts. -/
def commandLine (o : Options) : Res Parsed :=
  if o.help > 0 then .ok (.exits 0)
  else if o.noexec > 0 ∧ o.exec > 0 then .ok (.exits (-1))
  else if (o.exec > 0 ∨ o.interactive > 0) ∧ o.test > 0 then .ok (.exits (-1))
  else if o.noexec > 0 ∧ o.test > 0 then .ok (.exits (-1))
  else
    (if o.loadConfig > 0 then o.load else .ok ()).bind fun _ =>
    (if o.param > 0 then o.params else .ok 0).bind fun numFail =>
    .ok (.flow (if numFail > 0 then -2 else o.flow) o.testCase)

/-- What the program does in the end. -/
inductive Action
  | exits (code : Int)
  /-- `integrate::execute::All` -/
  | optimise
  /-- `integrate::execute::Interactive` -/
  | interact
  /-- the tests, then `exit` -/
  | tests (which : String)
  /-- writes the configuration; `exit(-2)` after it if the parameters failed -/
  | writesConfig (failed : Bool)
  deriving DecidableEq, Repr

/-- The body of `RSVSExecution` after the command line (main.cpp:45-83), with `ExecuteTests`
(main.cpp:85-112) and `NoExecution` (main.cpp:114-129), in a program with tests. -/
def act (f : Int) (t : String) : Res Action :=
  if f > 0 then
    if f = 1 then .ok .optimise else if f = 2 then .ok .interact else .error .throws
  else if f = -3 then
    if t = "all" ∨ t = "short" ∨ t = "new" then .ok (.tests t) else .error .throws
  else .ok (.writesConfig (f = -2))

/-- `RSVSExecution` (main.cpp:45-83). -/
def execution (o : Options) : Res Action :=
  (commandLine o).bind fun
    | .exits c => .ok (.exits c)
    | .flow f t => act f t

/-! ## Preparation of the parameters -/

/-- `param::ioout` (parameters.hpp:203-224) as far as it is prepared. -/
structure IoOut where
  pathoutdir : String := "../out"
  pathpattern : String := "Archive_%Y_%m/Day_%y-%m-%d"
  basenamepattern : String := "%y%m%dT%H%M%S_"
  basenameoutdir : String := "rsvs3d_"
  outdir : String := ""
  pattern : String := ""
  deriving DecidableEq, Repr

/-- `param::ioin` (parameters.hpp:185-195). -/
structure IoIn where
  snakemeshname : String := ""
  volumeshname : String := ""
  snakefile : String := ""
  casename : String := ""
  deriving DecidableEq, Repr

/-- `param::files` (parameters.hpp:229-238). -/
structure Files where
  appcasename2outdir : Bool := true
  ioin : IoIn := {}
  ioout : IoOut := {}
  deriving DecidableEq, Repr

/-- `param::ioout::PrepareForUse` (parameters.cpp:351-377); `time` is `std::put_time` at the
time of the call. -/
def IoOut.prepare (time : String → String) (p : IoOut) : IoOut :=
  let p := if p.pathoutdir = "" then { p with pathoutdir := p.pathoutdir ++ "." } else p
  let p := if p.pathpattern ≠ "" then
    { p with pathoutdir := p.pathoutdir ++ "/" ++ time p.pathpattern } else p
  let p := if p.basenamepattern ≠ "" then
    { p with basenameoutdir := p.basenameoutdir ++ time p.basenamepattern,
             pattern := time p.basenamepattern } else p
  if p.outdir = "" then { p with outdir := p.pathoutdir ++ "/" ++ p.basenameoutdir } else p

/-- `param::ioin::PrepareForUse` (parameters.cpp:326-333). -/
def IoIn.check (p : IoIn) : Res Unit :=
  if p.snakefile ≠ "" ∧ (p.volumeshname = "" ∨ p.snakemeshname = "") then .error .throws
  else .ok ()

/-- `param::files::PrepareForUse` (parameters.cpp:416-427). -/
def Files.prepare (time : String → String) (p : Files) : Res Files :=
  p.ioin.check.bind fun _ =>
  let io := p.ioout.prepare time
  if p.appcasename2outdir then
    .ok { p with ioout := { io with outdir := io.outdir ++ p.ioin.casename,
                                    pattern := io.pattern ++ p.ioin.casename },
                 appcasename2outdir := false }
  else .ok { p with ioout := io }

/-! ## Choice of the target fill -/

/-- `param::rsvs` (parameters.hpp:74-95): which fills are active and what they are.  `file` is
the text of the file named by `filefill`; `none` if it cannot be opened. -/
structure FillConf where
  fileActive : Bool := false
  file : Option Text.Str := none
  makeActive : Bool := false
  cstActive : Bool := false
  cst : ℚ := 1 / 2

/-- The choice of the fill in `integrate::prepare::Snake` (RSVSintegration.cpp:453-497),
without the `PrepareForUse` which follows. -/
def chooseFill (rd : ℚ → ℚ) (c : FillConf) (m : Mesh) : Res Mesh :=
  if m.meshDim = 3 then
    if c.fileActive then
      match c.file with
      | none => .error .throws
      | some s => MeshIO.loadTargetFill rd m s
    else if c.makeActive then .ok m
    else if c.cstActive then
      .ok { m with volus := m.volus.map (fun v => { v with target := c.cst }) }
    else .ok m
  else if m.meshDim = 2 then
    if c.fileActive then
      match c.file with
      | none => .error .throws
      | some s => MeshIO.loadTargetFill rd m s
    else if c.makeActive then .ok m
    else if c.cstActive then
      .ok { m with surfs := m.surfs.map (fun v => { v with target := c.cst }) }
    else .ok m
  else .ok m

/-! ## Output levels -/

/-- `integrate::constants::outputs::numberdefined` (RSVSintegration.hpp:68). -/
def numberdefined : Int := 7

/-- `printBaseSnake` (RSVSintegration.cpp:1198-1201). -/
def printBaseSnake (lvl : Int) : Bool := lvl == 2 || lvl == 5 || lvl == 7

/-- `printFullSnake` (RSVSintegration.cpp:1202-1205). -/
def printFullSnake (lvl : Int) : Bool := lvl == 3 || lvl == 4 || decide (numberdefined < lvl)

/-- `printGradientsSnake` (RSVSintegration.cpp:1206-1209). -/
def printGradientsSnake (lvl : Int) : Bool :=
  lvl == 4 || lvl == 5 || lvl == 7 || decide (numberdefined < lvl)

/-- `printVectorSnake` (RSVSintegration.cpp:1210-1213). -/
def printVectorSnake (lvl : Int) : Bool := lvl == 6 || lvl == 7 || decide (numberdefined < lvl)

/-- What is written: restart files, log, snake, full data, gradients, vectors. -/
inductive Out
  | restart | log | snake | full | gradients | vectors
  deriving DecidableEq, Repr

/-- `integrate::execute::Logging` (RSVSintegration.cpp:689-731): the outputs of a step. -/
def stepOutputs (logginglvl : Int) : List Out :=
  (if 0 < logginglvl then [.log] else []) ++
  (if printBaseSnake logginglvl then [.snake] else []) ++
  (if printFullSnake logginglvl then [.full] else []) ++
  (if printGradientsSnake logginglvl then [.gradients] else []) ++
  (if printVectorSnake logginglvl then [.vectors] else [])

/-- The level used by `integrate::execute::PostProcessing` (RSVSintegration.cpp:735-739). -/
def finalLevel (logginglvl outputlvl : Int) : Int :=
  if logginglvl ≠ 5 then max outputlvl logginglvl else outputlvl

/-- `integrate::execute::PostProcessing` (RSVSintegration.cpp:733-777): the final outputs. -/
def finalOutputs (logginglvl outputlvl : Int) : List Out :=
  let lvl := finalLevel logginglvl outputlvl
  (if lvl > 1 then [.restart] else []) ++
  (if 0 < lvl then [.log] else []) ++
  (if printBaseSnake lvl then [.snake] else []) ++
  (if printFullSnake lvl then [.full] else []) ++
  (if printGradientsSnake lvl then [.gradients] else []) ++
  (if printVectorSnake lvl then [.vectors] else [])

/-! ## Layout templates -/

/-- `getline`: the line, the text after it, and whether the end of the text was met (`eof`). -/
def getline : Text.Str → Text.Str × Text.Str × Bool
  | [] => ([], [], true)
  | '\n' :: s => ([], s, false)
  | c :: s => let (l, r, e) := getline s; (c :: l, r, e)

/-- `string::find`: what stands before the first occurrence of `m`. -/
def findBefore (m : Text.Str) : Text.Str → Option Text.Str
  | [] => if m = [] then some [] else none
  | c :: s =>
    if m.isPrefixOf (c :: s) then some []
    else (findBefore m s).map (c :: ·)

/-- `integrate::utils::WriteModifiedTemplate` (RSVSintegration.cpp:1020-1049): the text
written for the template `s`.  `fuel` bounds the number of lines. -/
def writeModified (oldLine newLine : Text.Str) : Nat → Text.Str → Res Text.Str
  | 0, _ => .error .diverges
  | fuel + 1, s =>
    let g := getline s
    match findBefore oldLine g.1 with
    | some pre => .ok (pre ++ newLine ++ ['\n'] ++ g.2.1)
    | none =>
      if g.2.2 then .ok (g.1 ++ ['\n'])
      else (writeModified oldLine newLine fuel g.2.1).map (g.1 ++ ['\n'] ++ ·)

end RSVS.Config
