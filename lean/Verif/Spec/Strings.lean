import Mathlib.Data.Nat.Notation

/-!
# Specification of the string functions
-/

namespace Verif.Spec

/-- White space of the "C" locale. -/
def Space (c : Char) : Prop := c ∈ [' ', '\t', '\n', '\r', '\x0c', '\x0b']

/-- Nothing but white space. -/
def Blank (w : List Char) : Prop := ∀ c ∈ w, Space c

/-- A word: not empty, no white space. -/
def Word (t : List Char) : Prop := t ≠ [] ∧ ∀ c ∈ t, ¬ Space c

/-- The text is empty or begins with white space. -/
def Sep (r : List Char) : Prop := ∀ c, r.head? = some c → Space c

/-- `s` is a sequence of words separated by white space. -/
inductive Words : List Char → List (List Char) → Prop
  | nil {w} : Blank w → Words w []
  | cons {w t r l} : Blank w → Word t → Sep r → Words r l → Words (w ++ t ++ r) (t :: l)

/-- One item of a line with quotations. -/
inductive Item where
  | plain (t : List Char)
  | quoted (q : List Char)

/-- What a reader should get. -/
def Item.content : Item → List Char
  | .plain t => t
  | .quoted q => q

/-- How it stands in the line. -/
def Item.text : Item → List Char
  | .plain t => t
  | .quoted q => '"' :: q ++ ['"']

/-- A plain item is a word, and no item has quotation marks inside. -/
def Item.Good : Item → Prop
  | .plain t => Word t ∧ '"' ∉ t
  | .quoted q => '"' ∉ q

/-- `s` is a line of items separated by white space. -/
inductive Line : List Char → List Item → Prop
  | nil {w} : Blank w → Line w []
  | cons {w it r l} : Blank w → Item.Good it → Sep r → Line r l → Line (w ++ it.text ++ r) (it :: l)

/-- Each occurrence of `out` replaced by `inn`, from left to right; the first argument bounds the number
of steps. -/
def replaceGo (out inn : List Char) : ℕ → List Char → List Char
  | 0, s => s
  | _ + 1, [] => []
  | n + 1, c :: s =>
    if out.isPrefixOf (c :: s) then inn ++ replaceGo out inn n ((c :: s).drop out.length)
    else c :: replaceGo out inn n s

/-- Each occurrence of `out` replaced by `inn`, from left to right. -/
def replaceAll (out inn s : List Char) : List Char := replaceGo out inn s.length s

/-- White space of a line of numbers. -/
def NumSpace (c : Char) : Prop := c ∈ [' ', '\n', '\r', '\x0c', '\t']

/-- `s` is a sequence of fields separated by white space; a field has no NUL. -/
inductive Fields : List Char → List (List Char) → Prop
  | nil {w} : (∀ c ∈ w, NumSpace c) → Fields w []
  | cons {w t r l} : (∀ c ∈ w, NumSpace c) → t ≠ [] → (∀ c ∈ t, ¬ NumSpace c ∧ c ≠ '\x00') →
      (∀ c, r.head? = some c → NumSpace c) → Fields r l → Fields (w ++ t ++ r) (t :: l)

end Verif.Spec
