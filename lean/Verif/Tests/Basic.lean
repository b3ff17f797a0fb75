import Verif.Basic

/-!
# The unit tests of the repository, run on the model

The files of this directory are transcriptions of /repo/test: each test case is a program over the functions of the model, and
the theorem says that it runs to its end with every `REQUIRE` met.  The kernel computes that.  This checks the model (the
transcription of the headers), on the assumption that the code passes its own tests; the code itself was not run.

Not transcribed: `REQUIRE`s about the standard library's own classes; "variant_ref visit" as it is (`Refs.lean`: it is undefined).
-/

namespace Ptl.Tests

variable {σ α : Type}

/-- `REQUIRE(b)`: nothing catches the failure of a test -/
def require (b : Bool) : M σ Unit := if b then pure () else M.ub .badRange

/-- `REQUIRE_THROWS(m)` -/
def requireThrows (m : M σ α) : M σ Unit := fun s =>
  match m s with
  | .exc _ s => .ok () s
  | _ => .ub .badRange

/-- the test case ends normally -/
def passes (s : σ) (test : M σ Unit) : Bool :=
  match test s with
  | .ok _ _ => true
  | _ => false

/-- the characters of a string literal (without the terminator) -/
macro:max "b!" s:str : term => do
  let bs := s.getString.toUTF8.toList.map fun b => Lean.Syntax.mkNumLit (toString b.toNat)
  `(([$(bs.toArray),*] : List UInt8))

/-- a character literal -/
def chr (c : Char) : UInt8 := UInt8.ofNat c.toNat

end Ptl.Tests
