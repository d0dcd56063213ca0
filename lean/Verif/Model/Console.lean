import Verif.Model.Workflow

/-!
# Model of `mtoolkit/console.py` and of the whole of `main.py`

The options of `build_cmd_parser` are read by the algorithm of `argparse` (Python 2.7), which is modelled for these options: exact option
strings, `--long=value`, abbreviated long options, joined short options, `--`, and arguments that look like negative numbers.
-/

namespace Verif.Console

open Verif Verif.EqCatalog Verif.Workflow

/-- The actions of the parser: help is added by `argparse` itself. -/
inductive Act where
  | help | input | detailed | version
deriving DecidableEq, Repr

/-- The option strings in the order they are added, mtoolkit/console.py:35-50. -/
def options : List (Text × Act) :=
  [("-h".toList, .help), ("--help".toList, .help), ("-i".toList, .input), ("--input-file".toList, .input), ("-d".toList, .detailed),
   ("--detailed".toList, .detailed), ("-v".toList, .version), ("--version".toList, .version)]

/-- `self._option_string_actions`. -/
def lookup (s : Text) : Option Act := (options.find? fun o => o.1 = s).map Prod.snd

/-- Only the input file takes an argument (`nargs=1`). -/
def Act.takesArg : Act → Bool
  | .input => true
  | _ => false

/-- `s.split('=', 1)` for a text with an equals sign. -/
def splitEq : Text → Option (Text × Text)
  | [] => none
  | c :: cs => if c = '=' then some ([], cs) else (splitEq cs).map fun p => (c :: p.1, p.2)

/-- `_negative_number_matcher`, `^-\d+$|^-\d*\.\d+$`. -/
def negativeNumber : Text → Bool
  | '-' :: cs =>
    let ds := cs.takeWhile Char.isDigit
    match cs.dropWhile Char.isDigit with
    | [] => !ds.isEmpty
    | '.' :: fs => !fs.isEmpty && fs.all Char.isDigit
    | _ => false
  | _ => false

/-- What an argument is: an argument, the separator `--`, or an option with its action (none: unknown), its option string and the value
joined to it. -/
inductive Kind where
  | arg
  | sep
  | opt (act : Option Act) (name : Text) (explicit : Option Text)
deriving DecidableEq, Repr

/-- `_get_option_tuples`: the options an abbreviation can mean. -/
def optionTuples (s : Text) : List (Act × Text × Option Text) :=
  if "--".toList.isPrefixOf s then
    let (pre, ex) := match splitEq s with
      | some (a, b) => (a, some b)
      | none => (s, none)
    (options.filter fun o => pre.isPrefixOf o.1).map fun o => (o.2, o.1, ex)
  else options.filterMap fun o =>
    if o.1 = s.take 2 then some (o.2, o.1, some (s.drop 2))
    else if s.isPrefixOf o.1 then some (o.2, o.1, none) else none

/-- `_parse_optional`; `none` is the usage error of an ambiguous abbreviation. -/
def classify (s : Text) : Option Kind :=
  match s with
  | [] => some .arg
  | c :: cs =>
    if c ≠ '-' then some .arg
    else match lookup s with
    | some a => some (.opt (some a) s none)
    | none =>
      if cs.isEmpty then some .arg
      else match (splitEq s).bind fun p => (lookup p.1).map fun a => (a, p) with
      | some (a, p) => some (.opt (some a) p.1 (some p.2))
      | none => match optionTuples s with
        | [(a, n, e)] => some (.opt (some a) n e)
        | _ :: _ :: _ => none
        | [] => if negativeNumber s then some .arg else if ' ' ∈ s then some .arg else some (.opt none s none)

/-- All arguments are classified first; everything after `--` is an argument. -/
def classifyAll : List Text → Option (List (Kind × Text))
  | [] => some []
  | s :: ss =>
    if s = "--".toList then some ((.sep, s) :: ss.map fun t => (.arg, t))
    else (classify s).bind fun k => (classifyAll ss).map fun l => (k, s) :: l

/-- End of parsing: the process exits with a status (help, version: 0; usage error: 2), an exception of `argparse` itself, or the arguments. -/
inductive Parsed where
  | exit (status : Nat)
  | crash (e : PyErr)
  | args (input : Option Text) (detailed : Bool)
deriving DecidableEq, Repr

/-- The namespace filled so far, and whether there were unknown arguments. -/
structure Found where
  input : Option Text := none
  detailed : Bool := false
  extras : Bool := false
deriving DecidableEq, Repr

/-- `take_action`: help and version exit. -/
def act (a : Act) (v : Option Text) (f : Found) : Except Parsed Found :=
  match a with
  | .help => .error (.exit 0)
  | .version => .error (.exit 0)
  | .detailed => .ok { f with detailed := true }
  | .input => .ok { f with input := v }

/-- The joined short options of `consume_optional`: which actions, in order, with the value of the last one. -/
def cluster (a : Act) (name : Text) (value : Text) : Except Parsed (List (Act × Option Text)) :=
  if a.takesArg then .ok [(a, some value)]
  else if name[1]? = some '-' then .error (.exit 2)
  else match value with
    | [] => .error (.crash .indexError)
    | c :: cs => match lookup ['-', c] with
      | none => .error (.exit 2)
      | some b =>
        if cs.isEmpty then .ok [(a, none), (b, none)]
        else (cluster b ['-', c] cs).map fun l => (a, none) :: l
termination_by value.length

/-- Performing actions in order. -/
def actAll : List (Act × Option Text) → Found → Except Parsed Found
  | [], f => .ok f
  | (a, v) :: l, f => (act a v f).bind (actAll l)

/-- The loop of `_parse_known_args` without positional arguments. -/
def consume : List (Kind × Text) → Found → Except Parsed Found
  | [], f => .ok f
  | (.arg, _) :: l, f => consume l { f with extras := true }
  | (.sep, _) :: l, f => consume l { f with extras := true }
  | (.opt none _ _, _) :: l, f => consume l { f with extras := true }
  | (.opt (some a) n (some e), _) :: l, f =>
    match cluster a n e with
    | .error p => .error p
    | .ok as =>
      -- the last option of the group takes the next argument
      match as.getLast? with
      | some (.input, none) => match l with
        | (.arg, t) :: l => (actAll (as.dropLast ++ [(.input, some t)]) f).bind (consume l)
        | _ => .error (.exit 2)
      | _ => (actAll as f).bind (consume l)
  | (.opt (some a) _ none, _) :: l, f =>
    if a.takesArg then
      match l with
      | (.arg, t) :: l => (act a (some t) f).bind (consume l)
      | _ => .error (.exit 2)
    else (act a none f).bind (consume l)

/-- `parse_args`. -/
def parseArgs (argv : List Text) : Parsed :=
  match classifyAll argv with
  | none => .exit 2
  | some l => match consume l {} with
    | .error p => p
    | .ok f => if f.extras then .exit 2 else .args f.input f.detailed

/-! ### The program -/

/-- How the program ended. -/
inductive End where
  | exit (status : Nat)
  | raised (e : PyErr)
  | normal
deriving DecidableEq, Repr

/-- What it prints: the help text, or the message about the input file. -/
inductive Message where
  | help | noInputFile
deriving DecidableEq, Repr

/-- Observable result of the program. -/
structure Report (F : Type) where
  ended : End
  printed : List Message
  fs : Text → Option Content

/-- Name of the log file, mtoolkit/console.py:93. -/
def logFile : Text := "debug.log".toList

section
variable {F : Type} [PyMath F]

/-- `build_logger`, mtoolkit/console.py:74-97: with `-d` the log file is opened for appending, which creates it.  Simplified: what is
logged later is left out. -/
def buildLogger (x : Ext F) (detailed : Bool) (fs : Text → Option Content) : Except PyErr (Text → Option Content) :=
  if detailed then do
    openWrite x logFile
    .ok (fun q => if q = logFile then some ((fs logFile).getD (.text [])) else fs q)
  else .ok fs

/-- `Context(filename)`, mtoolkit/workflow.py:215-226: an empty name gives an empty configuration, of which every key is missing; `load` is
`yaml.load`. -/
def loadContext (load : Content → Except PyErr (Config F)) (name : Text) (fs : Text → Option Content) : Except PyErr (Config F) :=
  if name.isEmpty then .error .keyError
  else match fs name with
    | none => .error .ioError
    | some c => load c

/-- main.py:34-58 with `cmd_line` (mtoolkit/console.py:54-71); `argv` is `sys.argv[1:]`.  `none`: the run does not end. -/
def program (x : Ext F) (load : Content → Except PyErr (Config F)) (argv : List Text) (fs : Text → Option Content) (pos : Nat) : Option (Report F) :=
  if argv.isEmpty then some ⟨.normal, [.help], fs⟩
  else match parseArgs argv with
  | .exit n => some ⟨.exit n, [], fs⟩
  | .crash e => some ⟨.raised e, [], fs⟩
  | .args none _ => some ⟨.raised .typeError, [], fs⟩
  | .args (some name) detailed =>
    let printed := if x.exists_ name then [] else [.noInputFile, .help]
    match buildLogger x detailed fs with
    | .error e => some ⟨.raised e, printed, fs⟩
    | .ok fs => match loadContext load name fs with
      | .error e => some ⟨.raised e, printed, fs⟩
      | .ok cfg => (main x cfg fs pos).map fun o =>
          ⟨match o.raised with
            | some e => .raised e
            | none => .normal, printed, o.world.fs⟩

end

end Verif.Console
