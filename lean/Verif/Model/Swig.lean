import Verif.Model.Bds
/-!
# The exception handlers of src/api/pyqrllib.i, dilithium.i and kyber.i

SWIG puts them around every wrapped call. The conversion of arguments and results (typemaps of the SWIG library) is not modelled.
The model has the two exceptions the library throws, both derived from `std::exception`; what the handlers do with others is not
modelled.
-/

namespace Qrl

/-- What a Python program sees of a call: a result, a `ValueError`, a `RuntimeError`, or undefined behaviour in the call.
src/api/pyqrllib.i:37-43. -/
inductive PyResult (α : Type) where
  | value (a : α)
  | valueError
  | runtimeError
  | undefined
  deriving DecidableEq, Repr

/-- `HandleAllExceptions`, src/api/pyqrllib.i:16-34 (the same in dilithium.i:16-34 and kyber.i:16-34): `invalid_argument` becomes
`ValueError`, any other `std::exception` a `RuntimeError`. -/
def pyException {α : Type} : Exc → PyResult α
  | .invalidArgument => .valueError
  | .runtimeError => .runtimeError

/-- The Python `%exception` block around a call, src/api/pyqrllib.i:37-43 (dilithium.i:37-43, kyber.i:37-43). -/
def pyCall {α : Type} : Outcome α → PyResult α
  | .ok a => .value a
  | .throw e => pyException e
  | .ub => .undefined

/-- The same around a method that may change its object: the object lives on after an exception.
src/api/pyqrllib.i:37-43. -/
def pyMethod {σ α : Type} (o : σ) : Step σ α → PyResult α × σ
  | .ret a o' => (.value a, o')
  | .raise e o' => (pyException e, o')
  | .ub => (.undefined, o)

/-- What a Go program sees: a result, a panic (which it can recover from), or undefined behaviour in the call.
src/api/pyqrllib.i:45-50. -/
inductive GoResult (α : Type) where
  | value (a : α)
  | panic
  | undefined
  deriving DecidableEq, Repr

/-- The Go `%exception` block around a call, src/api/pyqrllib.i:45-50 (dilithium.i:45-50, kyber.i:45-50): any `std::exception`
becomes a panic. -/
def goCall {α : Type} : Outcome α → GoResult α
  | .ok a => .value a
  | .throw _ => .panic
  | .ub => .undefined

/-- The same around a method.
src/api/pyqrllib.i:45-50. -/
def goMethod {σ α : Type} (o : σ) : Step σ α → GoResult α × σ
  | .ret a o' => (.value a, o')
  | .raise _ o' => (.panic, o')
  | .ub => (.undefined, o)

end Qrl
