import Verif.Model.RenderError
import Verif.Props.EditorError
/-!
# C167 — what the errors of the library and of the renderer say
-/
namespace Verif.Props.ErrorTexts
open Verif Verif.ErrorInfo Verif.RenderError Verif.Props.EditorError

/-- If none of some words begins another, what begins with one of them does not begin with another. -/
theorem apart {hs : List Str} {n : Nat} (ht : (List.range n).all (fun i => (List.range n).all (fun j =>
    i == j || !(hs.getD i []).isPrefixOf (hs.getD j []))) = true) {i j : Nat} (hi : i < n) (hj : j < n) {a b : Str}
    (h : hs.getD i [] ++ a = hs.getD j [] ++ b) : i = j ∧ a = b := by
  have key : ∀ {i j : Nat}, i < n → j < n → hs.getD i [] <+: hs.getD j [] → i = j := by
    intro i j hi hj hp
    have := List.all_eq_true.1 (List.all_eq_true.1 ht i (List.mem_range.2 hi)) j (List.mem_range.2 hj)
    rw [List.isPrefixOf_iff_prefix.2 hp] at this
    simpa using this
  have e : i = j := by
    rcases List.append_eq_append_iff.1 h with ⟨x, h1, -⟩ | ⟨x, h1, -⟩
    · exact key hi hj ⟨x, h1.symm⟩
    · exact (key hj hi ⟨x, h1.symm⟩).symm
  subst e
  exact ⟨rfl, List.append_cancel_left h⟩

theorem last_ne {w : Str} {d : Char} (x : Str) (hw : w.getLast? = some d) (hd : d.isDigit = false) : ∀ c ∈ (x ++ w).getLast?, c.isDigit = false := by
  intro c hc
  rw [List.getLast?_append, hw] at hc
  cases hc
  exact hd

/-- Cutting a number off the end. -/
theorem num_cut_end {a b : Nat} {x y : Str} (hx : ∀ c ∈ x.getLast?, c.isDigit = false) (hy : ∀ c ∈ y.getLast?, c.isDigit = false)
    (h : x ++ showNat a = y ++ showNat b) : a = b ∧ x = y := by
  have tw : ∀ (n : Nat) (z : Str), (∀ c ∈ z.getLast?, c.isDigit = false) →
      (z ++ showNat n).reverse.takeWhile Char.isDigit = (showNat n).reverse := by
    intro n z hz
    rw [List.reverse_append, List.takeWhile_append_of_pos (fun c hc => showNat_digits n c (List.mem_reverse.1 hc))]
    rw [← List.head?_reverse] at hz
    cases k : z.reverse with
    | nil => simp
    | cons c w => rw [k] at hz; rw [List.takeWhile_cons, hz c (by simp)]; simp
  have e := congrArg (fun l => l.reverse.takeWhile Char.isDigit) h
  rw [tw a x hx, tw b y hy] at e
  obtain rfl := num_end (List.reverse_inj.1 e)
  exact ⟨rfl, List.append_cancel_right h⟩

namespace OfParse

/-- The words a message begins with, one for each kind of parse error. -/
def heads : List Str :=
  ["Expected section header like [Script Info] at line ".toList, "Unclosed section header at line ".toList, "Unknown section '".toList,
   "Invalid field format at line ".toList, "Missing required field '".toList, "Invalid format line at line ".toList,
   "Field count mismatch at line ".toList, "Invalid time format '".toList, "Invalid color format '".toList, "Invalid numeric value '".toList,
   "Invalid style override at line ".toList, "Invalid drawing command at line ".toList, "UU-decode error at line ".toList,
   "UTF-8 encoding error at byte ".toList, "Unsupported script version '".toList, "Circular style reference detected: ".toList,
   "Maximum nesting depth exceeded at line ".toList, "Input size ".toList, "I/O error during parsing: ".toList, "Memory allocation failed: ".toList,
   "Internal parser error at line ".toList, "Invalid event type at line ".toList, "Insufficient fields at line ".toList,
   "Missing format specification for section".toList, "Section not found".toList, "Index out of bounds".toList,
   "Unsupported section type for operation: ".toList]

/-- The number of the kind. -/
def num : ParseError → Nat
  | .expectedHeader .. => 0 | .unclosedHeader .. => 1 | .unknownSection .. => 2 | .fieldFormat .. => 3 | .missingField .. => 4 | .formatLine .. => 5
  | .fieldCount .. => 6 | .time .. => 7 | .color .. => 8 | .number .. => 9 | .override .. => 10 | .drawing .. => 11 | .uuDecode .. => 12
  | .utf8 .. => 13 | .version .. => 14 | .circular .. => 15 | .nesting .. => 16 | .tooLarge .. => 17 | .io .. => 18 | .memory .. => 19
  | .internal .. => 20 | .eventType .. => 21 | .tooFewFields .. => 22 | .missingFormat => 23 | .noSection => 24 | .index => 25
  | .unsupported .. => 26

/-- What follows these words. -/
def body : ParseError → Str
  | .expectedHeader n => showNat n
  | .unclosedHeader n => showNat n ++ ": missing ']'".toList
  | .unknownSection s n => s ++ ("' at line ".toList ++ showNat n)
  | .fieldFormat n => showNat n ++ ": expected 'key: value'".toList
  | .missingField f s => f ++ ("' in ".toList ++ (s ++ " section".toList))
  | .formatLine n r => showNat n ++ (": ".toList ++ r)
  | .fieldCount n a b => showNat n ++ (": expected ".toList ++ (showNat a ++ (", found ".toList ++ showNat b)))
  | .time v n r => v ++ ("' at line ".toList ++ (showNat n ++ (": ".toList ++ r)))
  | .color v n r => v ++ ("' at line ".toList ++ (showNat n ++ (": ".toList ++ r)))
  | .number v n r => v ++ ("' at line ".toList ++ (showNat n ++ (": ".toList ++ r)))
  | .override n r => showNat n ++ (": ".toList ++ r)
  | .drawing n r => showNat n ++ (": ".toList ++ r)
  | .uuDecode n r => showNat n ++ (": ".toList ++ r)
  | .utf8 n r => showNat n ++ (": ".toList ++ r)
  | .version v => v ++ "': expected v4.00+ or compatible".toList
  | .circular m => m
  | .nesting n l => showNat n ++ (": limit is ".toList ++ showNat l)
  | .tooLarge n l => showNat n ++ (" bytes exceeds limit ".toList ++ (showNat l ++ " bytes".toList))
  | .io m => m
  | .memory m => m
  | .internal n r => showNat n ++ (": ".toList ++ r)
  | .eventType n => showNat n ++ ": expected Dialogue, Comment, Picture, Sound, Movie, or Command".toList
  | .tooFewFields a b n => showNat n ++ (": expected ".toList ++ (showNat a ++ (", found ".toList ++ showNat b)))
  | .missingFormat => []
  | .noSection => []
  | .index => []
  | .unsupported m => m

theorem text_eq (e : ParseError) : num e < 27 ∧ e.text = heads.getD (num e) [] ++ body e := by
  cases e with
  | expectedHeader n =>
    refine ⟨by dsimp only [num]; omega, ?_⟩
    show at_ "Expected section header like [Script Info] at line " n = "Expected section header like [Script Info] at line ".toList ++ (showNat n)
    simp only [at_, List.append_assoc]
  | unclosedHeader n =>
    refine ⟨by dsimp only [num]; omega, ?_⟩
    show at_ "Unclosed section header at line " n ++ ": missing ']'".toList = "Unclosed section header at line ".toList ++ (showNat n ++ ": missing ']'".toList)
    simp only [at_, List.append_assoc]
  | unknownSection s n =>
    refine ⟨by dsimp only [num]; omega, ?_⟩
    show "Unknown section '".toList ++ s ++ at_ "' at line " n = "Unknown section '".toList ++ (s ++ ("' at line ".toList ++ showNat n))
    simp only [at_, List.append_assoc]
  | fieldFormat n =>
    refine ⟨by dsimp only [num]; omega, ?_⟩
    show at_ "Invalid field format at line " n ++ ": expected 'key: value'".toList = "Invalid field format at line ".toList ++ (showNat n ++ ": expected 'key: value'".toList)
    simp only [at_, List.append_assoc]
  | missingField f s =>
    refine ⟨by dsimp only [num]; omega, ?_⟩
    show "Missing required field '".toList ++ f ++ "' in ".toList ++ s ++ " section".toList = "Missing required field '".toList ++ (f ++ ("' in ".toList ++ (s ++ " section".toList)))
    simp only [at_, List.append_assoc]
  | formatLine n r =>
    refine ⟨by dsimp only [num]; omega, ?_⟩
    show at_ "Invalid format line at line " n ++ ": ".toList ++ r = "Invalid format line at line ".toList ++ (showNat n ++ (": ".toList ++ r))
    simp only [at_, List.append_assoc]
  | fieldCount n a b =>
    refine ⟨by dsimp only [num]; omega, ?_⟩
    show at_ "Field count mismatch at line " n ++ at_ ": expected " a ++ at_ ", found " b = "Field count mismatch at line ".toList ++ (showNat n ++ (": expected ".toList ++ (showNat a ++ (", found ".toList ++ showNat b))))
    simp only [at_, List.append_assoc]
  | time v n r =>
    refine ⟨by dsimp only [num]; omega, ?_⟩
    show "Invalid time format '".toList ++ v ++ at_ "' at line " n ++ ": ".toList ++ r = "Invalid time format '".toList ++ (v ++ ("' at line ".toList ++ (showNat n ++ (": ".toList ++ r))))
    simp only [at_, List.append_assoc]
  | color v n r =>
    refine ⟨by dsimp only [num]; omega, ?_⟩
    show "Invalid color format '".toList ++ v ++ at_ "' at line " n ++ ": ".toList ++ r = "Invalid color format '".toList ++ (v ++ ("' at line ".toList ++ (showNat n ++ (": ".toList ++ r))))
    simp only [at_, List.append_assoc]
  | number v n r =>
    refine ⟨by dsimp only [num]; omega, ?_⟩
    show "Invalid numeric value '".toList ++ v ++ at_ "' at line " n ++ ": ".toList ++ r = "Invalid numeric value '".toList ++ (v ++ ("' at line ".toList ++ (showNat n ++ (": ".toList ++ r))))
    simp only [at_, List.append_assoc]
  | override n r =>
    refine ⟨by dsimp only [num]; omega, ?_⟩
    show at_ "Invalid style override at line " n ++ ": ".toList ++ r = "Invalid style override at line ".toList ++ (showNat n ++ (": ".toList ++ r))
    simp only [at_, List.append_assoc]
  | drawing n r =>
    refine ⟨by dsimp only [num]; omega, ?_⟩
    show at_ "Invalid drawing command at line " n ++ ": ".toList ++ r = "Invalid drawing command at line ".toList ++ (showNat n ++ (": ".toList ++ r))
    simp only [at_, List.append_assoc]
  | uuDecode n r =>
    refine ⟨by dsimp only [num]; omega, ?_⟩
    show at_ "UU-decode error at line " n ++ ": ".toList ++ r = "UU-decode error at line ".toList ++ (showNat n ++ (": ".toList ++ r))
    simp only [at_, List.append_assoc]
  | utf8 n r =>
    refine ⟨by dsimp only [num]; omega, ?_⟩
    show at_ "UTF-8 encoding error at byte " n ++ ": ".toList ++ r = "UTF-8 encoding error at byte ".toList ++ (showNat n ++ (": ".toList ++ r))
    simp only [at_, List.append_assoc]
  | version v =>
    refine ⟨by dsimp only [num]; omega, ?_⟩
    show "Unsupported script version '".toList ++ v ++ "': expected v4.00+ or compatible".toList = "Unsupported script version '".toList ++ (v ++ "': expected v4.00+ or compatible".toList)
    simp only [at_, List.append_assoc]
  | circular m =>
    refine ⟨by dsimp only [num]; omega, ?_⟩
    exact rfl
  | nesting n l =>
    refine ⟨by dsimp only [num]; omega, ?_⟩
    show at_ "Maximum nesting depth exceeded at line " n ++ at_ ": limit is " l = "Maximum nesting depth exceeded at line ".toList ++ (showNat n ++ (": limit is ".toList ++ showNat l))
    simp only [at_, List.append_assoc]
  | tooLarge n l =>
    refine ⟨by dsimp only [num]; omega, ?_⟩
    show at_ "Input size " n ++ at_ " bytes exceeds limit " l ++ " bytes".toList = "Input size ".toList ++ (showNat n ++ (" bytes exceeds limit ".toList ++ (showNat l ++ " bytes".toList)))
    simp only [at_, List.append_assoc]
  | io m =>
    refine ⟨by dsimp only [num]; omega, ?_⟩
    exact rfl
  | memory m =>
    refine ⟨by dsimp only [num]; omega, ?_⟩
    exact rfl
  | internal n r =>
    refine ⟨by dsimp only [num]; omega, ?_⟩
    show at_ "Internal parser error at line " n ++ ": ".toList ++ r = "Internal parser error at line ".toList ++ (showNat n ++ (": ".toList ++ r))
    simp only [at_, List.append_assoc]
  | eventType n =>
    refine ⟨by dsimp only [num]; omega, ?_⟩
    show at_ "Invalid event type at line " n ++ ": expected Dialogue, Comment, Picture, Sound, Movie, or Command".toList = "Invalid event type at line ".toList ++ (showNat n ++ ": expected Dialogue, Comment, Picture, Sound, Movie, or Command".toList)
    simp only [at_, List.append_assoc]
  | tooFewFields a b n =>
    refine ⟨by dsimp only [num]; omega, ?_⟩
    show at_ "Insufficient fields at line " n ++ at_ ": expected " a ++ at_ ", found " b = "Insufficient fields at line ".toList ++ (showNat n ++ (": expected ".toList ++ (showNat a ++ (", found ".toList ++ showNat b))))
    simp only [at_, List.append_assoc]
  | missingFormat =>
    refine ⟨by dsimp only [num]; omega, ?_⟩
    exact (List.append_nil "Missing format specification for section".toList).symm
  | noSection =>
    refine ⟨by dsimp only [num]; omega, ?_⟩
    exact (List.append_nil "Section not found".toList).symm
  | index =>
    refine ⟨by dsimp only [num]; omega, ?_⟩
    exact (List.append_nil "Index out of bounds".toList).symm
  | unsupported m =>
    refine ⟨by dsimp only [num]; omega, ?_⟩
    exact rfl

theorem table : (List.range 27).all (fun i => (List.range 27).all (fun j =>
    i == j || !(heads.getD i []).isPrefixOf (heads.getD j []))) = true := by decide +kernel

theorem same {a b : ParseError} (h : a.text = b.text) : num a = num b ∧ body a = body b := by
  obtain ⟨a1, a2⟩ := text_eq a
  obtain ⟨b1, b2⟩ := text_eq b
  rw [a2, b2] at h
  exact apart table a1 b1 h

end OfParse

namespace OfCore

/-- The words a message begins with, one for each kind of error of the library. -/
def heads : List Str :=
  ["Parse error: ".toList, "Tokenization error: ".toList, "Analysis error: ".toList, "Plugin error: ".toList, "Invalid color format: ".toList,
   "Invalid numeric value: ".toList, "Invalid time format: ".toList, "UTF-8 encoding error at position ".toList, "I/O error: ".toList,
   "Memory allocation failed: ".toList, "Configuration error: ".toList, "Validation error: ".toList, "Feature not supported: ".toList,
   "Version incompatibility: ".toList, "Resource limit exceeded: ".toList, "Security policy violation: ".toList, "Internal error: ".toList]

/-- The number of the kind. -/
def num : CoreError → Nat
  | .parse .. => 0 | .tokenization .. => 1 | .analysis .. => 2 | .plugin .. => 3 | .invalidColor .. => 4 | .invalidNumeric .. => 5
  | .invalidTime .. => 6 | .utf8 .. => 7 | .io .. => 8 | .outOfMemory .. => 9 | .config .. => 10 | .validation .. => 11 | .feature .. => 12
  | .version .. => 13 | .limit .. => 14 | .security .. => 15 | .internal .. => 16

/-- What follows these words. -/
def body : CoreError → Str
  | .parse e => e.text
  | .tokenization m => m
  | .analysis m => m
  | .plugin m => m
  | .invalidColor m => m
  | .invalidNumeric m => m
  | .invalidTime m => m
  | .utf8 p m => showNat p ++ (": ".toList ++ m)
  | .io m => m
  | .outOfMemory m => m
  | .config m => m
  | .validation m => m
  | .feature f r => f ++ (" (requires feature '".toList ++ (r ++ "')".toList))
  | .version m => m
  | .limit r c l => ((((r ++ " (".toList) ++ showNat c) ++ "/".toList) ++ showNat l) ++ ")".toList
  | .security m => m
  | .internal m => m ++ " (this is a bug, please report)".toList

theorem text_eq (e : CoreError) : num e < 17 ∧ e.text = heads.getD (num e) [] ++ body e := by
  cases e with
  | parse e =>
    refine ⟨by dsimp only [num]; omega, ?_⟩
    exact rfl
  | tokenization m =>
    refine ⟨by dsimp only [num]; omega, ?_⟩
    exact rfl
  | analysis m =>
    refine ⟨by dsimp only [num]; omega, ?_⟩
    exact rfl
  | plugin m =>
    refine ⟨by dsimp only [num]; omega, ?_⟩
    exact rfl
  | invalidColor m =>
    refine ⟨by dsimp only [num]; omega, ?_⟩
    exact rfl
  | invalidNumeric m =>
    refine ⟨by dsimp only [num]; omega, ?_⟩
    exact rfl
  | invalidTime m =>
    refine ⟨by dsimp only [num]; omega, ?_⟩
    exact rfl
  | utf8 p m =>
    refine ⟨by dsimp only [num]; omega, ?_⟩
    show at_ "UTF-8 encoding error at position " p ++ ": ".toList ++ m = "UTF-8 encoding error at position ".toList ++ (showNat p ++ (": ".toList ++ m))
    simp only [at_, List.append_assoc]
  | io m =>
    refine ⟨by dsimp only [num]; omega, ?_⟩
    exact rfl
  | outOfMemory m =>
    refine ⟨by dsimp only [num]; omega, ?_⟩
    exact rfl
  | config m =>
    refine ⟨by dsimp only [num]; omega, ?_⟩
    exact rfl
  | validation m =>
    refine ⟨by dsimp only [num]; omega, ?_⟩
    exact rfl
  | feature f r =>
    refine ⟨by dsimp only [num]; omega, ?_⟩
    show "Feature not supported: ".toList ++ f ++ " (requires feature '".toList ++ r ++ "')".toList = "Feature not supported: ".toList ++ (f ++ (" (requires feature '".toList ++ (r ++ "')".toList)))
    simp only [at_, List.append_assoc]
  | version m =>
    refine ⟨by dsimp only [num]; omega, ?_⟩
    exact rfl
  | limit r c l =>
    refine ⟨by dsimp only [num]; omega, ?_⟩
    show "Resource limit exceeded: ".toList ++ r ++ at_ " (" c ++ at_ "/" l ++ ")".toList = "Resource limit exceeded: ".toList ++ (((((r ++ " (".toList) ++ showNat c) ++ "/".toList) ++ showNat l) ++ ")".toList)
    simp only [at_, List.append_assoc]
  | security m =>
    refine ⟨by dsimp only [num]; omega, ?_⟩
    exact rfl
  | internal m =>
    refine ⟨by dsimp only [num]; omega, ?_⟩
    show "Internal error: ".toList ++ m ++ " (this is a bug, please report)".toList = "Internal error: ".toList ++ (m ++ " (this is a bug, please report)".toList)
    simp only [at_, List.append_assoc]

theorem table : (List.range 17).all (fun i => (List.range 17).all (fun j =>
    i == j || !(heads.getD i []).isPrefixOf (heads.getD j []))) = true := by decide +kernel

theorem same {a b : CoreError} (h : a.text = b.text) : num a = num b ∧ body a = body b := by
  obtain ⟨a1, a2⟩ := text_eq a
  obtain ⟨b1, b2⟩ := text_eq b
  rw [a2, b2] at h
  exact apart table a1 b1 h

end OfCore

namespace OfRender

/-- The words a message begins with, one for each kind of error of the renderer. -/
def heads : List Str :=
  ["Invalid dimensions: dimensions must be positive and non-zero".toList, "Invalid buffer size: expected ".toList, "Failed to create pixmap".toList,
   "No rendering backend available".toList, "Unsupported backend: ".toList, "Backend initialization failed: ".toList, "Backend error: ".toList,
   "Pipeline error: ".toList, "Text shaping failed: ".toList, "Drawing failed: ".toList, "Invalid draw command: ".toList,
   "Effect application failed: ".toList, "Compositing failed: ".toList, "Font error: ".toList, "GPU error: ".toList,
   "Resource limit exceeded: ".toList, "Invalid script: ".toList, "Parse error: ".toList, "Invalid input: ".toList, "Core error: ".toList,
   "Initialization error: ".toList, "IO error: ".toList, "Invalid state: ".toList, "Unsupported operation: ".toList]

/-- The number of the kind. -/
def num : RErr → Nat
  | .dimensions => 0 | .bufferSize .. => 1 | .pixmap => 2 | .noBackend => 3 | .unsupportedBackend .. => 4 | .backendInit .. => 5 | .backend .. => 6
  | .pipeline .. => 7 | .shaping .. => 8 | .drawing .. => 9 | .drawCommand .. => 10 | .effect .. => 11 | .compositing .. => 12 | .font .. => 13
  | .gpu .. => 14 | .limit .. => 15 | .script .. => 16 | .parse .. => 17 | .input .. => 18 | .core .. => 19 | .init .. => 20 | .io .. => 21
  | .state .. => 22 | .operation .. => 23

/-- What follows these words. -/
def body : RErr → Str
  | .dimensions => []
  | .bufferSize e a => showNat e ++ (" bytes, got ".toList ++ showNat a)
  | .pixmap => []
  | .noBackend => []
  | .unsupportedBackend m => m
  | .backendInit m => m
  | .backend m => m
  | .pipeline m => m
  | .shaping m => m
  | .drawing m => m
  | .drawCommand m => m
  | .effect m => m
  | .compositing m => m
  | .font m => m
  | .gpu m => m
  | .limit m => m
  | .script m => m
  | .parse m => m
  | .input m => m
  | .core e => e.text
  | .init m => m
  | .io m => m
  | .state m => m
  | .operation m => m

theorem text_eq (e : RErr) : num e < 24 ∧ e.text = heads.getD (num e) [] ++ body e := by
  cases e with
  | dimensions =>
    refine ⟨by dsimp only [num]; omega, ?_⟩
    exact (List.append_nil "Invalid dimensions: dimensions must be positive and non-zero".toList).symm
  | bufferSize e a =>
    refine ⟨by dsimp only [num]; omega, ?_⟩
    show at_ "Invalid buffer size: expected " e ++ at_ " bytes, got " a = "Invalid buffer size: expected ".toList ++ (showNat e ++ (" bytes, got ".toList ++ showNat a))
    simp only [at_, List.append_assoc]
  | pixmap =>
    refine ⟨by dsimp only [num]; omega, ?_⟩
    exact (List.append_nil "Failed to create pixmap".toList).symm
  | noBackend =>
    refine ⟨by dsimp only [num]; omega, ?_⟩
    exact (List.append_nil "No rendering backend available".toList).symm
  | unsupportedBackend m =>
    refine ⟨by dsimp only [num]; omega, ?_⟩
    exact rfl
  | backendInit m =>
    refine ⟨by dsimp only [num]; omega, ?_⟩
    exact rfl
  | backend m =>
    refine ⟨by dsimp only [num]; omega, ?_⟩
    exact rfl
  | pipeline m =>
    refine ⟨by dsimp only [num]; omega, ?_⟩
    exact rfl
  | shaping m =>
    refine ⟨by dsimp only [num]; omega, ?_⟩
    exact rfl
  | drawing m =>
    refine ⟨by dsimp only [num]; omega, ?_⟩
    exact rfl
  | drawCommand m =>
    refine ⟨by dsimp only [num]; omega, ?_⟩
    exact rfl
  | effect m =>
    refine ⟨by dsimp only [num]; omega, ?_⟩
    exact rfl
  | compositing m =>
    refine ⟨by dsimp only [num]; omega, ?_⟩
    exact rfl
  | font m =>
    refine ⟨by dsimp only [num]; omega, ?_⟩
    exact rfl
  | gpu m =>
    refine ⟨by dsimp only [num]; omega, ?_⟩
    exact rfl
  | limit m =>
    refine ⟨by dsimp only [num]; omega, ?_⟩
    exact rfl
  | script m =>
    refine ⟨by dsimp only [num]; omega, ?_⟩
    exact rfl
  | parse m =>
    refine ⟨by dsimp only [num]; omega, ?_⟩
    exact rfl
  | input m =>
    refine ⟨by dsimp only [num]; omega, ?_⟩
    exact rfl
  | core e =>
    refine ⟨by dsimp only [num]; omega, ?_⟩
    exact rfl
  | init m =>
    refine ⟨by dsimp only [num]; omega, ?_⟩
    exact rfl
  | io m =>
    refine ⟨by dsimp only [num]; omega, ?_⟩
    exact rfl
  | state m =>
    refine ⟨by dsimp only [num]; omega, ?_⟩
    exact rfl
  | operation m =>
    refine ⟨by dsimp only [num]; omega, ?_⟩
    exact rfl

theorem table : (List.range 24).all (fun i => (List.range 24).all (fun j =>
    i == j || !(heads.getD i []).isPrefixOf (heads.getD j []))) = true := by decide +kernel

theorem same {a b : RErr} (h : a.text = b.text) : num a = num b ∧ body a = body b := by
  obtain ⟨a1, a2⟩ := text_eq a
  obtain ⟨b1, b2⟩ := text_eq b
  rw [a2, b2] at h
  exact apart table a1 b1 h

end OfRender

/-- The names in the error can be told from the words around them. -/
def PlainParse : ParseError → Prop
  | .missingField f _ => '\'' ∉ f
  | .time v _ _ | .color v _ _ | .number v _ _ => '\'' ∉ v
  | _ => True

/-- **C167, partial.** Two parse errors with the same message are the same error: the message tells what is wrong, where, and why.

Missing: fields and values with a quote (`C167_names_violated`). -/
theorem C167_parse_partial {a b : ParseError} (pa : PlainParse a) (pb : PlainParse b) (h : a.text = b.text) : a = b := by
  obtain ⟨hn, hb'⟩ := OfParse.same h
  cases a <;> cases b <;> first
    | (dsimp only [OfParse.num] at hn; omega)
    | rfl
    | skip
  all_goals dsimp only [OfParse.body] at hb'
  case expectedHeader.expectedHeader => rw [num_end hb']
  case unclosedHeader.unclosedHeader => rw [(num_cut (by simp) (by simp) hb').1]
  case fieldFormat.fieldFormat => rw [(num_cut (by simp) (by simp) hb').1]
  case eventType.eventType => rw [(num_cut (by simp) (by simp) hb').1]
  case unknownSection.unknownSection s n s' n' =>
    rw [← List.append_assoc, ← List.append_assoc] at hb'
    obtain ⟨rfl, k⟩ := num_cut_end (last_ne _ rfl rfl) (last_ne _ rfl rfl) hb'
    rw [List.append_cancel_right k]
  case missingField.missingField f s f' s' =>
    change f ++ '\'' :: (" in ".toList ++ (s ++ " section".toList)) = f' ++ '\'' :: (" in ".toList ++ (s' ++ " section".toList)) at hb'
    obtain ⟨rfl, k⟩ := cut pa pb hb'
    rw [List.append_cancel_right (List.append_cancel_left (as := " in ".toList) k)]
  case version.version => rw [List.append_cancel_right hb']
  case fieldCount.fieldCount =>
    obtain ⟨rfl, k⟩ := num_cut (by simp) (by simp) hb'
    obtain ⟨rfl, k2⟩ := num_cut (by simp) (by simp) (List.append_cancel_left k)
    rw [num_end (List.append_cancel_left k2)]
  case tooFewFields.tooFewFields =>
    obtain ⟨rfl, k⟩ := num_cut (by simp) (by simp) hb'
    obtain ⟨rfl, k2⟩ := num_cut (by simp) (by simp) (List.append_cancel_left k)
    rw [num_end (List.append_cancel_left k2)]
  case nesting.nesting =>
    obtain ⟨rfl, k⟩ := num_cut (by simp) (by simp) hb'
    rw [num_end (List.append_cancel_left k)]
  case tooLarge.tooLarge =>
    obtain ⟨rfl, k⟩ := num_cut (by simp) (by simp) hb'
    obtain ⟨rfl, -⟩ := num_cut (by simp) (by simp) (List.append_cancel_left k)
    rfl
  case time.time v n r v' n' r' =>
    change v ++ '\'' :: (" at line ".toList ++ (showNat n ++ (": ".toList ++ r))) =
      v' ++ '\'' :: (" at line ".toList ++ (showNat n' ++ (": ".toList ++ r'))) at hb'
    obtain ⟨rfl, k⟩ := cut pa pb hb'
    obtain ⟨rfl, k2⟩ := num_cut (by simp) (by simp) (List.append_cancel_left (as := " at line ".toList) k)
    rw [List.append_cancel_left k2]
  case color.color v n r v' n' r' =>
    change v ++ '\'' :: (" at line ".toList ++ (showNat n ++ (": ".toList ++ r))) =
      v' ++ '\'' :: (" at line ".toList ++ (showNat n' ++ (": ".toList ++ r'))) at hb'
    obtain ⟨rfl, k⟩ := cut pa pb hb'
    obtain ⟨rfl, k2⟩ := num_cut (by simp) (by simp) (List.append_cancel_left (as := " at line ".toList) k)
    rw [List.append_cancel_left k2]
  case number.number v n r v' n' r' =>
    change v ++ '\'' :: (" at line ".toList ++ (showNat n ++ (": ".toList ++ r))) =
      v' ++ '\'' :: (" at line ".toList ++ (showNat n' ++ (": ".toList ++ r'))) at hb'
    obtain ⟨rfl, k⟩ := cut pa pb hb'
    obtain ⟨rfl, k2⟩ := num_cut (by simp) (by simp) (List.append_cancel_left (as := " at line ".toList) k)
    rw [List.append_cancel_left k2]
  all_goals first
    | rw [hb']
    | (obtain ⟨rfl, k3⟩ := num_cut (by simp) (by simp) hb'
       rw [List.append_cancel_left k3])

example : (ParseError.time "0:0".toList 3 "x".toList).text = "Invalid time format '0:0' at line 3: x".toList ∧
    PlainParse (.time "0:0".toList 3 "x".toList) := ⟨by decide +kernel, by unfold PlainParse; decide⟩

/-- The names in the error can be told from the words around them. -/
def PlainCore : CoreError → Prop
  | .parse e => PlainParse e
  | .feature f _ => '(' ∉ f
  | _ => True

/-- **C167, partial.** Two errors of the library with the same message are the same error.

Missing: parse errors with a quote in a field or value, features with a bracket in their name (`C167_names_violated`). -/
theorem C167_core_partial {a b : CoreError} (pa : PlainCore a) (pb : PlainCore b) (h : a.text = b.text) : a = b := by
  obtain ⟨hn, hb'⟩ := OfCore.same h
  cases a <;> cases b <;> first
    | (dsimp only [OfCore.num] at hn; omega)
    | skip
  all_goals dsimp only [OfCore.body] at hb'
  case parse.parse => rw [C167_parse_partial pa pb hb']
  case utf8.utf8 =>
    obtain ⟨rfl, k⟩ := num_cut (by simp) (by simp) hb'
    rw [List.append_cancel_left k]
  case feature.feature f r f' r' =>
    have e : ∀ f r : Str, f ++ (" (requires feature '".toList ++ (r ++ "')".toList)) = (f ++ [' ']) ++ '(' :: ("requires feature '".toList ++
        (r ++ "')".toList)) := by intro f r; rw [List.append_assoc]; rfl
    rw [e, e] at hb'
    obtain ⟨h1, k⟩ := cut (by simpa using (show '(' ∉ f from pa)) (by simpa using (show '(' ∉ f' from pb)) hb'
    obtain rfl := List.append_cancel_right h1
    rw [List.append_cancel_right (List.append_cancel_left (as := "requires feature '".toList) k)]
  case limit.limit =>
    obtain ⟨rfl, k⟩ := num_cut_end (last_ne _ rfl rfl) (last_ne _ rfl rfl) (List.append_cancel_right hb')
    obtain ⟨rfl, k2⟩ := num_cut_end (last_ne _ rfl rfl) (last_ne _ rfl rfl) (List.append_cancel_right k)
    rw [List.append_cancel_right k2]
  case internal.internal => rw [List.append_cancel_right hb']
  all_goals rw [hb']

example : (CoreError.limit "cache (1/2)".toList 30 20).text = "Resource limit exceeded: cache (1/2) (30/20)".toList ∧
    PlainCore (.limit "cache (1/2)".toList 30 20) := ⟨by decide +kernel, trivial⟩

/-- **C167, disagreement.** Values and features with odd names: different errors, the same message. -/
theorem C167_names_violated :
    (CoreError.parse (.time "a' at line 1: b".toList 2 "c".toList)).text = (CoreError.parse (.time "a".toList 1 "b' at line 2: c".toList)).text ∧
    (CoreError.feature "a (requires feature 'b".toList "c".toList).text = (CoreError.feature "a".toList "b (requires feature 'c".toList).text := by
  decide +kernel

/-- **C167, partial.** Two errors of the renderer with the same message are the same error.

Missing: errors of the library with odd names (`C167_names_violated`). -/
theorem C167_render_partial {a b : RErr} (pa : ∀ e, a = .core e → PlainCore e) (pb : ∀ e, b = .core e → PlainCore e) (h : a.text = b.text) :
    a = b := by
  obtain ⟨hn, hb'⟩ := OfRender.same h
  cases a <;> cases b <;> first
    | (dsimp only [OfRender.num] at hn; omega)
    | rfl
    | skip
  all_goals dsimp only [OfRender.body] at hb'
  case core.core => rw [C167_core_partial (pa _ rfl) (pb _ rfl) hb']
  case bufferSize.bufferSize =>
    obtain ⟨rfl, k⟩ := num_cut (by simp) (by simp) hb'
    rw [num_end (List.append_cancel_left k)]
  all_goals rw [hb']

example : (RErr.bufferSize 64 12).text = "Invalid buffer size: expected 64 bytes, got 12".toList := by decide +kernel

/-- **C167.** What may be gone on after, told from the message alone: exactly errors in shaping, drawing, effects and fonts; what may be
cured by more resources: exactly errors with fonts and limits. -/
theorem C167_kinds (e : RErr) :
    (e.isRecoverable = true ↔ ∃ w ∈ ["Text shaping failed: ".toList, "Drawing failed: ".toList, "Effect application failed: ".toList, "Font error: ".toList],
      w <+: e.text) ∧
    (e.isResource = true ↔ ∃ w ∈ ["Font error: ".toList, "Resource limit exceeded: ".toList], w <+: e.text) := by
  obtain ⟨hl, ht⟩ := OfRender.text_eq e
  have key : ∀ k : Nat, k < 24 → (OfRender.heads.getD k [] <+: e.text ↔ OfRender.num e = k) := by
    intro k hk
    constructor
    · rintro ⟨x, hx⟩
      rw [ht] at hx
      exact (apart OfRender.table hk hl hx).1.symm
    · rintro rfl
      exact ⟨_, ht.symm⟩
  have k8 : "Text shaping failed: ".toList <+: e.text ↔ OfRender.num e = 8 := key 8 (by omega)
  have k9 : "Drawing failed: ".toList <+: e.text ↔ OfRender.num e = 9 := key 9 (by omega)
  have k11 : "Effect application failed: ".toList <+: e.text ↔ OfRender.num e = 11 := key 11 (by omega)
  have k13 : "Font error: ".toList <+: e.text ↔ OfRender.num e = 13 := key 13 (by omega)
  have k15 : "Resource limit exceeded: ".toList <+: e.text ↔ OfRender.num e = 15 := key 15 (by omega)
  simp only [List.mem_cons, List.not_mem_nil, or_false, exists_eq_or_imp, exists_eq_left, k8, k9, k11, k13, k15]
  clear key k8 k9 k11 k13 k15 ht hl
  cases e <;> simp [RErr.isRecoverable, RErr.isResource, OfRender.num]

example : (RErr.font "x".toList).isRecoverable = true ∧ (RErr.limit "x".toList).isRecoverable = false := by decide

open Verif.EditorError

theorem mixed_table : (List.range 24).all (fun i => (List.range 17).all (fun j => (i == 15 && j == 11) ||
    (!(EditorError.heads.getD i []).isPrefixOf (OfCore.heads.getD j []) && !(OfCore.heads.getD j []).isPrefixOf (EditorError.heads.getD i [])))) =
    true := by decide +kernel

theorem mixed {e : EdErr} {c : CoreError} (he : ¬ IsCore e) (h : e.text = c.text) : ∃ m, e = .validation m ∧ c = .validation m := by
  obtain ⟨a1, a2⟩ := EditorError.text_eq he
  obtain ⟨b1, b2⟩ := OfCore.text_eq c
  rw [a2, b2] at h
  have t := List.all_eq_true.1 (List.all_eq_true.1 mixed_table _ (List.mem_range.2 a1)) _ (List.mem_range.2 b1)
  have k : EditorError.num e = 15 ∧ OfCore.num c = 11 := by
    rcases List.append_eq_append_iff.1 h with ⟨x, h1, -⟩ | ⟨x, h1, -⟩
    · rw [List.isPrefixOf_iff_prefix.2 ⟨x, h1.symm⟩] at t
      simpa using t
    · rw [List.isPrefixOf_iff_prefix.2 ⟨x, h1.symm⟩] at t
      simpa using t
  rw [k.1, k.2] at h
  have hb := List.append_cancel_left (as := "Validation error: ".toList) h
  obtain ⟨k1, k2⟩ := k
  clear a1 a2 b1 b2 t h he
  cases e <;> first | (dsimp only [EditorError.num] at k1; omega) | skip
  cases c <;> first | (dsimp only [OfCore.num] at k2; omega) | skip
  dsimp only [EditorError.body, OfCore.body] at hb
  exact ⟨_, rfl, by rw [hb]⟩

/-- The names in the error can be told from the words around them, also in errors of the library. -/
def PlainAll (e : EdErr) : Prop := Plain e ∧ ∀ c, e = .core c → PlainCore c

/-- **C166, partial.** Errors of the editor, those of the library among them, with the same message are the same error, unless both are
validation errors of which one is the editor's own.

Missing: that exception (`C166_core_violated`), odd names (`C166_names_violated`, `C167_names_violated`). -/
theorem C166_all_partial {a b : EdErr} (pa : PlainAll a) (pb : PlainAll b) (h : a.text = b.text) :
    a = b ∨ ∃ m, (a = .validation m ∧ b = .core (.validation m)) ∨ (a = .core (.validation m) ∧ b = .validation m) := by
  by_cases ha : IsCore a
  · obtain ⟨c, rfl⟩ := ha
    by_cases hb : IsCore b
    · obtain ⟨d, rfl⟩ := hb
      exact .inl (by rw [C167_core_partial (pa.2 c rfl) (pb.2 d rfl) h])
    · obtain ⟨m, rfl, rfl⟩ := mixed hb h.symm
      exact .inr ⟨m, .inr ⟨rfl, rfl⟩⟩
  · by_cases hb : IsCore b
    · obtain ⟨d, rfl⟩ := hb
      obtain ⟨m, rfl, rfl⟩ := mixed ha h
      exact .inr ⟨m, .inl ⟨rfl, rfl⟩⟩
    · exact .inl (C166_text_partial ha hb pa.1 pb.1 h)

example : PlainAll (.core (.io "x".toList)) ∧ (EdErr.core (.io "x".toList)).text ≠ (EdErr.io "x".toList).text :=
  ⟨⟨trivial, fun c h => by cases h; trivial⟩, by decide +kernel⟩

end Verif.Props.ErrorTexts
