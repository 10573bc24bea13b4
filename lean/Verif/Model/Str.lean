import Verif.Py.Dict
/-!
# Text of components (`__str__`)

Simplifications: texts of classes and the `repr` of names are parameters of the objects; an
object whose class has no `__str__` of sympl's (as ScalingWrapper and UpdateFrequencyWrapper)
has Python's own text.
-/

namespace Verif

/-- `template.format(*args)` for templates whose only fields are `{}`; IndexError if there
are more fields than arguments, further arguments are ignored. -/
def formatChars : List Char → List String → Except Err (List Char)
  | '{' :: '}' :: rest, a :: args => formatChars rest args >>= fun t => .ok (a.toList ++ t)
  | '{' :: '}' :: _, [] => .error .indexError
  | c :: rest, args => formatChars rest args >>= fun t => .ok (c :: t)
  | [], _ => .ok []

/-- `str.format` -/
def pyFormat (template : String) (args : List String) : Except Err String :=
  formatChars template.toList args >>= fun t => .ok (String.ofList t)

/-- `sep.join(texts)` -/
def joinText (sep : String) : List String → String
  | [] => ""
  | [t] => t
  | t :: rest => t ++ sep ++ joinText sep rest

/-- `str(d.keys())`, which is `dict_keys(['a', 'b'])` -/
def keysText (quote : String → String) (names : List String) : String :=
  "dict_keys([" ++ joinText ", " (names.map quote) ++ "])"

/-- What `__str__` uses of an object: the text of its class and the names in its property
dictionaries. -/
inductive StrObj where
  | stepper (cls : String) (inputs outputs diagnostics : List String)
  | tendency (cls : String) (inputs tendencies diagnostics : List String)
  | implicit (cls : String) (inputs tendencies diagnostics : List String)
  | diagnostic (cls : String) (inputs diagnostics : List String)
  | monitor (cls : String)
  | composite (cls : String) (parts : List StrObj)
  /-- a TendencyStepper with the text of its `prognostic_list` -/
  | timeStepper (cls : String) (components : String)
  | other (text : String)

/-- `Stepper.__str__` (base_components.py:459-468) -/
def stepperText (quote : String → String) (cls : String) (i o d : List String) : Except Err String :=
  pyFormat "instance of {}(Stepper)\n    inputs: {}\n    outputs: {}\n    diagnostics: {}"
    [cls, keysText quote i, keysText quote o, keysText quote d]

/-- `TendencyComponent.__str__` (base_components.py:713-722) -/
def tendencyText (quote : String → String) (cls : String) (i t d : List String) : Except Err String :=
  pyFormat "instance of {}(TendencyComponent)\n    inputs: {}\n    tendencies: {}\n    diagnostics: {}"
    [cls, keysText quote i, keysText quote t, keysText quote d]

/-- `ImplicitTendencyComponent.__str__` (base_components.py:938-946) -/
def implicitText (quote : String → String) (cls : String) (i t d : List String) : Except Err String :=
  pyFormat "instance of {}(TendencyComponent)\n    inputs: {}\n    tendencies: {}\n    diagnostics: {}"
    [cls, keysText quote i, keysText quote t, keysText quote d]

/-- `DiagnosticComponent.__str__` (base_components.py:1146-1153) -/
def diagnosticText (quote : String → String) (cls : String) (i d : List String) : Except Err String :=
  pyFormat "instance of {}(DiagnosticComponent)\n    inputs: {}\n    diagnostics: {}"
    [cls, keysText quote i, keysText quote d]

/-- `Monitor.__str__` (base_components.py:1250-1251) -/
def monitorText (cls : String) : Except Err String := pyFormat "instance of {}(Monitor)" [cls]

/-- `ComponentComposite.__str__` (composite.py:62-65) from the texts of the components -/
def compositeText (cls : String) (texts : List String) : Except Err String :=
  pyFormat "{}(\n{}\n)" [cls, joinText ",\n" texts]

/-- `TendencyStepper.__str__` (tendencystepper.py:102-106), whose one argument is the list of
components -/
def timeStepperText (components : String) : Except Err String :=
  pyFormat "instance of {}(TendencyStepper)\n    TendencyComponent components: {}" [components]

mutual

/-- `str(component)` -/
def strOf (quote : String → String) : StrObj → Except Err String
  | .stepper cls i o d => stepperText quote cls i o d
  | .tendency cls i t d => tendencyText quote cls i t d
  | .implicit cls i t d => implicitText quote cls i t d
  | .diagnostic cls i d => diagnosticText quote cls i d
  | .monitor cls => monitorText cls
  | .composite cls parts => strAll quote parts >>= compositeText cls
  | .timeStepper _ components => timeStepperText components
  | .other text => .ok text

/-- `str(component) for component in self.component_list` (composite.py:65) -/
def strAll (quote : String → String) : List StrObj → Except Err (List String)
  | [] => .ok []
  | p :: rest => strOf quote p >>= fun t => strAll quote rest >>= fun ts => .ok (t :: ts)

end

end Verif
