import Verif.Model.ErrorInfo
/-!
# The errors of the renderer — `crates/ass-renderer/src/utils/errors.rs`

With `std` the texts are those of the attributes, without it those of lines 148-189; they are the same. Left out: `WasmError`, which exists only
when the library is built for the browser.
-/
namespace Verif.RenderError
open Verif Verif.ErrorInfo

/-- `RenderError`, lines 16-128. -/
inductive RErr where
  | dimensions
  | bufferSize (expected actual : Nat)
  | pixmap
  | noBackend
  | unsupportedBackend (m : Str)
  | backendInit (m : Str)
  | backend (m : Str)
  | pipeline (m : Str)
  | shaping (m : Str)
  | drawing (m : Str)
  | drawCommand (m : Str)
  | effect (m : Str)
  | compositing (m : Str)
  | font (m : Str)
  | gpu (m : Str)
  | limit (m : Str)
  | script (m : Str)
  | parse (m : Str)
  | input (m : Str)
  | core (e : CoreError)
  | init (m : Str)
  | io (m : Str)
  | state (m : Str)
  | operation (m : Str)
deriving DecidableEq, Repr

/-- `Display`, lines 148-189. -/
def RErr.text : RErr → Str
  | .dimensions => "Invalid dimensions: dimensions must be positive and non-zero".toList
  | .bufferSize e a => at_ "Invalid buffer size: expected " e ++ at_ " bytes, got " a
  | .pixmap => "Failed to create pixmap".toList
  | .noBackend => "No rendering backend available".toList
  | .unsupportedBackend m => "Unsupported backend: ".toList ++ m
  | .backendInit m => "Backend initialization failed: ".toList ++ m
  | .backend m => "Backend error: ".toList ++ m
  | .pipeline m => "Pipeline error: ".toList ++ m
  | .shaping m => "Text shaping failed: ".toList ++ m
  | .drawing m => "Drawing failed: ".toList ++ m
  | .drawCommand m => "Invalid draw command: ".toList ++ m
  | .effect m => "Effect application failed: ".toList ++ m
  | .compositing m => "Compositing failed: ".toList ++ m
  | .font m => "Font error: ".toList ++ m
  | .gpu m => "GPU error: ".toList ++ m
  | .limit m => "Resource limit exceeded: ".toList ++ m
  | .script m => "Invalid script: ".toList ++ m
  | .parse m => "Parse error: ".toList ++ m
  | .input m => "Invalid input: ".toList ++ m
  | .core e => "Core error: ".toList ++ e.text
  | .init m => "Initialization error: ".toList ++ m
  | .io m => "IO error: ".toList ++ m
  | .state m => "Invalid state: ".toList ++ m
  | .operation m => "Unsupported operation: ".toList ++ m

/-- `is_recoverable`, lines 131-140. -/
def RErr.isRecoverable : RErr → Bool
  | .shaping _ | .drawing _ | .effect _ | .font _ => true
  | _ => false

/-- `is_resource_error`, lines 142-145. -/
def RErr.isResource : RErr → Bool
  | .font _ | .limit _ => true
  | _ => false

end Verif.RenderError
