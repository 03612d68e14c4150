import Verif.Model.UtilFunctions
import Mathlib.Tactic.NormNum

/-!
# C154: the utility functions do what they document
-/

namespace Verif
open UtilFunctions

/-- The path, as a text. -/
def pathText : PathArg → UtilFunctions.Txt
  | .text s => s
  | .path s => s

/-- **C154** (`imread`): an image which can be read is returned as it is, for a path given as a text or as a `Path`; when it
cannot be read, an exception is raised; it has the same class and tells the path, for every class of exceptions whose
constructor accepts a message; the interruptions go through. -/
theorem C154_imread_partial {α : Type} (read : UtilFunctions.Txt → Except Err α) (p : PathArg) :
    (∀ a, imread read p = .ok a ↔ read (pathText p) = .ok a) ∧
    (∀ e, read (pathText p) = .error e → e.cls.isException = true → e.cls.takesOneText = true →
      imread read p = .error ⟨e.cls, [pathText p]⟩) ∧
    (∀ e, read (pathText p) = .error e → e.cls.isException = false → imread read p = .error e) := by
  have hp : p.str = pathText p := by cases p <;> rfl
  unfold imread
  rw [hp]
  refine ⟨fun a => ?_, fun e h h1 h2 => ?_, fun e h h1 => ?_⟩
  · cases h : read (pathText p) with
    | ok b => rfl
    | error e =>
      simp only
      constructor
      · intro h'
        split at h'
        · split at h' <;> cases h'
        · cases h'
      · intro h'; cases h'
  · rw [h]; simp only [h1, h2, if_true]
  · rw [h]; simp [h1]

/-- **C154**, what is false: the message of the first exception is lost, and two errors with different reasons give the
same exception. -/
theorem C154_reason_fails {α : Type} (read1 read2 : UtilFunctions.Txt → Except Err α) (p : PathArg) (e1 e2 : Err)
    (h1 : read1 (pathText p) = .error e1) (h2 : read2 (pathText p) = .error e2) (hc : e1.cls = e2.cls)
    (he : e1.cls.isException = true) : imread read1 p = imread read2 p := by
  have hp : p.str = pathText p := by cases p <;> rfl
  simp only [imread, hp, h1, h2, hc, hc ▸ he, if_true]

/-- **C154**, what is false: when the constructor of the class needs other arguments (for instance `UnicodeDecodeError`),
the exception has another class, and does not depend on the file: the path is not told. -/
theorem C154_other_class_fails {α : Type} (c : ErrClass) (hc : c.isException = true) (h1 : c.takesOneText = false) :
    ∃ e : Err, e.cls = typeErrorClass ∧ ∀ (read : UtilFunctions.Txt → Except Err α) (p : PathArg) (args : List UtilFunctions.Txt),
      read (pathText p) = .error ⟨c, args⟩ → imread read p = .error e := by
  refine ⟨wrongCall c, rfl, fun read p args h => ?_⟩
  have hp : p.str = pathText p := by cases p <;> rfl
  simp [imread, hp, h, hc, h1]

/-- The documentation of `is_memory_full`: "memory usage > 90 % and available memory < 500 MB". -/
def MemoryFull (percent : Rat) (available : Nat) : Prop := 90 < percent ∧ available < 500 * 1024 ^ 2

/-- **C154** (`is_memory_full`): the memory announced as full by the documentation is announced as full by the function; and
when the function announces that it is full, one of the two conditions holds. -/
theorem C154_memory_partial (percent : Rat) (available : Nat) :
    (MemoryFull percent available → isMemoryFull percent available = true) ∧
    (isMemoryFull percent available = true ↔ 90 < percent ∨ available < 500 * 1024 ^ 2) := by
  have h : isMemoryFull percent available = true ↔ 90 < percent ∨ available < 500 * 1024 ^ 2 := by
    unfold isMemoryFull
    rw [Bool.or_eq_true, decide_eq_true_eq, decide_eq_true_eq]
  exact ⟨fun hm => h.2 (.inl hm.1), h⟩

/-- **C154**, what is false: with 91 % of a large memory used, tens of gigabytes are available, and the memory is announced as
full; the same for a small memory which is not used. -/
theorem C154_memory_fails :
    (∀ available, isMemoryFull 91 available = true) ∧ (∀ percent, isMemoryFull percent (500 * 1024 ^ 2 - 1) = true) ∧
    ¬ MemoryFull 91 (50 * 1024 ^ 3) ∧ ¬ MemoryFull 10 (500 * 1024 ^ 2 - 1) := by
  refine ⟨fun a => (C154_memory_partial _ _).2.2 (.inl (by norm_num)), fun q => (C154_memory_partial _ _).2.2 (.inr (by norm_num)),
    fun h => ?_, fun h => ?_⟩
  · exact absurd h.2 (by norm_num)
  · exact absurd h.1 (by norm_num)

/-- **C154** (`str_short`): for a class or a function, the name of the module, a point and the name; for an object without
these attributes, the text of the object. -/
theorem C154_short_partial (m n : UtilFunctions.Txt) (a : AttrVal) (pretty : UtilFunctions.Txt) :
    strShort (.text m) (.text n) pretty = .ok (m ++ '.' :: n) ∧ strShort .absent a pretty = .ok pretty ∧
    strShort (.text m) .absent pretty = .ok pretty := by
  simp [strShort]

/-- **C154**, what is false: for an object whose module is `None` (for instance the method of a text or of a list), an
exception is raised. -/
theorem C154_short_fails (a : AttrVal) (pretty : UtilFunctions.Txt) : strShort .none a pretty = .error .typeError := rfl

/-- **C154** (`cstring`): the texts are separated by spaces, between the code of the colour and the code of the end; the
function fails exactly when the colour has no code (the end has one). -/
theorem C154_colour (codes : UtilFunctions.Txt → Option UtilFunctions.Txt) (endc : UtilFunctions.Txt)
    (he : codes "ENDC".toList = some endc) (args : List UtilFunctions.Txt) (color : Option UtilFunctions.Txt) :
    (∀ c, codes (color.getD "OKBLUE".toList) = some c →
      cstring codes args color = .ok (c ++ (args.intersperse [' ']).flatten ++ endc)) ∧
    (codes (color.getD "OKBLUE".toList) = none → cstring codes args color = .error .keyError) := by
  have hj : ∀ l : List UtilFunctions.Txt, joinSpace l = (l.intersperse [' ']).flatten := by
    intro l
    induction l with
    | nil => rfl
    | cons a l ih =>
      cases l with
      | nil => simp [joinSpace]
      | cons b l => rw [joinSpace, ih]; simp
  refine ⟨fun c hc => ?_, fun hc => ?_⟩
  · simp only [cstring, hc, he, hj]
  · simp only [cstring, hc]

/-- A file which does not exist, a file which is not a text, and an interruption. -/
example :
    imread (α := Nat) (fun _ => .error ⟨⟨"FileNotFoundError".toList, true, true⟩, ["2".toList, "No such file".toList]⟩)
      (.path "a.png".toList) = .error ⟨⟨"FileNotFoundError".toList, true, true⟩, ["a.png".toList]⟩ ∧
    (∃ e, imread (α := Nat) (fun _ => .error ⟨⟨"UnicodeDecodeError".toList, true, false⟩, []⟩) (.text "a.png".toList) = .error e ∧
      e.cls.name = "TypeError".toList) ∧
    imread (fun s => .ok s.length) (.text "a.png".toList) = .ok 5 := by
  refine ⟨by decide +kernel, ⟨_, rfl, rfl⟩, by decide +kernel⟩

/-- A coloured text. -/
example : cstring (fun c => if c = "ENDC".toList then some ['e'] else if c = "OKBLUE".toList then some ['b'] else none)
      ["ab".toList, "c".toList] none = .ok "bab ce".toList ∧
    cstring (fun c => if c = "ENDC".toList then some ['e'] else none) ["ab".toList] (some "RED".toList) = .error .keyError := by
  decide +kernel

/-- A method of a text; a function. -/
example : strShort .none (.text "upper".toList) [] = .error .typeError ∧
    strShort (.text "fluidimage.util".toList) (.text "imread".toList) [] = .ok "fluidimage.util.imread".toList := by
  decide +kernel

end Verif
