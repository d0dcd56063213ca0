import Verif.Model.Console
import Verif.Model.Configuration
import Verif.Model.YamlConfig

/-!
# Model of the program with the text of its configuration file: main.py, mtoolkit/console.py and mtoolkit/workflow.py

`Model/Console` leaves open what `yaml.load` delivers and runs configurations with all keys.  Here the text of the file is read by `Model/YamlConfig` and the dictionary is used
by `Model/Configuration`.  `none` stands for a run that does not end, and for a file outside of the modelled part of YAML.
-/

namespace Verif.Console

open Verif Verif.EqCatalog Verif.Nrml Verif.Workflow

/-- The empty dictionary of `Context()`, mtoolkit/workflow.py:215-221. -/
def emptyConfig {F : Type} : RawConfig F :=
  ⟨.missing, .missing, .missing, .missing, .missing, .missing, .missing, .missing, .missing, .missing, .missing, .missing, .missing⟩

/-- The end of a run, as the shell sees it. -/
def reported {F : Type} (printed : List Message) (o : Outcome F) : Report F :=
  ⟨match o.raised with
    | some e => .raised e
    | none => .normal, printed, o.world.fs⟩

/-- main.py:34-58 with `cmd_line` (mtoolkit/console.py:54-71) and `Context(filename)` (mtoolkit/workflow.py:215-226). -/
def textProgram [PyMath Dbl] (x : Ext Dbl) (argv : List Text) (fs : Text → Option Content) (pos : Nat) : Option (Report Dbl) :=
  if argv.isEmpty then some ⟨.normal, [.help], fs⟩
  else match parseArgs argv with
  | .exit n => some ⟨.exit n, [], fs⟩
  | .crash e => some ⟨.raised e, [], fs⟩
  | .args none _ => some ⟨.raised .typeError, [], fs⟩
  | .args (some name) detailed =>
    let printed := if x.exists_ name then [] else [.noInputFile, .help]
    match buildLogger x detailed fs with
    | .error e => some ⟨.raised e, printed, fs⟩
    | .ok fs =>
      if name.isEmpty then (rawMain x emptyConfig fs pos).map (reported printed)
      else match fs name with
        | none => some ⟨.raised .ioError, printed, fs⟩
        | some (.text t) => (Yaml.load t).bind fun r => (rawMain x r fs pos).map (reported printed)
        | some (.xml _) => none

end Verif.Console
