import Verif.Model.Layers
/-!
# Model of the model builders

models/namescope.hpp and models/sequential.hpp.
-/
namespace StdNN
open Outcome

/-- `name_prefix_ctx_t` (models/namescope.hpp:22-61): separator and stack of names; a `std::string` is its list of
characters. -/
structure NameScope where
  sep : List Char
  names : List (List Char)
  deriving DecidableEq, Repr

namespace NameScope

/-- Constructor (models/namescope.hpp:25). -/
def make (sep : List Char := ['/']) : NameScope := ⟨sep, []⟩

/-- `in` (models/namescope.hpp:29). -/
def in_ (c : NameScope) (name : List Char) : NameScope := { c with names := c.names ++ [name] }

/-- `out` (models/namescope.hpp:31): `pop_back` of an empty vector is undefined. -/
def out (c : NameScope) : Outcome NameScope :=
  if c.names = [] then .ub else .ok { c with names := c.names.dropLast }

/-- One step `if (!ss.empty()) { ss += sep_; } ss += s;` (models/namescope.hpp:37-38, 46-47). -/
def push (sep ss s : List Char) : List Char := (if ss = [] then ss else ss ++ sep) ++ s

/-- `operator*` (models/namescope.hpp:33-41). -/
def deref (c : NameScope) : List Char := c.names.foldl (push c.sep) []

/-- `operator()(name)` (models/namescope.hpp:43-48). -/
def call (c : NameScope) (name : List Char) : List Char := push c.sep c.deref name

/-- What a callback of `with` can do with the name scope and its environment: nothing, log `*ns`, log `ns(name)`, throw,
open a nested scope, run two statements, catch an exception. (Callbacks that call the public `in` and `out` themselves are
not covered.) Models the argument `f` of models/namescope.hpp:50. -/
inductive Stmt
  | skip
  | logPath
  | logName (name : List Char)
  | throw (e : Err)
  | with_ (pre : List Char) (body : Stmt)
  | seq (a b : Stmt)
  | tryCatch (a handler : Stmt)
  deriving DecidableEq, Repr

/-- Running a statement: the log, whether it returned, threw or went wrong, and the state of the name scope afterwards
(models/namescope.hpp:19-54). -/
structure Run where
  log : List (List Char)
  res : Outcome Unit
  ctx : NameScope
  deriving DecidableEq, Repr

/-- Execution. The case `with_` is `with` (models/namescope.hpp:50-54): the constructor of the scope object pushes the name
(lines 10-13), the body runs, the destructor pops (line 15) whether the body returned or threw. -/
def exec : Stmt → NameScope → Run
  | .skip, c => ⟨[], .ok (), c⟩
  | .logPath, c => ⟨[c.deref], .ok (), c⟩
  | .logName name, c => ⟨[c.call name], .ok (), c⟩
  | .throw e, c => ⟨[], .throw e, c⟩
  | .with_ pre body, c =>
    let r := exec body (c.in_ pre)
    match r.res with
    | .ub => r
    | _ => match r.ctx.out with
      | .ok c' => { r with ctx := c' }
      | .throw e => { r with res := .throw e }
      | .ub => { r with res := .ub }
  | .seq a b, c =>
    let r := exec a c
    match r.res with
    | .ok _ =>
      let r' := exec b r.ctx
      { r' with log := r.log ++ r'.log }
    | _ => r
  | .tryCatch a handler, c =>
    let r := exec a c
    match r.res with
    | .throw _ =>
      let r' := exec handler r.ctx
      { r' with log := r.log ++ r'.log }
    | _ => r

end NameScope

namespace Models
variable {R : Type}

/-- A layer as `sequential` uses it: a call on a tensor. Ranks and element types are checked by the C++ compiler. -/
abbrev LayerFn (R : Type) := Tensor R → Alloc (Layer R)

/-- `layers::with_init` (models/sequential.hpp:9-39): a layer taking initialisers, called with the stored ones in order.
Omitted initialisers default to `noop` in the layer itself. -/
def withInit (layer : Tensor R → List (Init R) → Alloc (Layer R)) (inits : List (Init R)) : LayerFn R :=
  fun x => layer x inits

/-- The call operator of `dense` with `n` initialisers given (layers/dense.hpp:31-35): missing ones are `noop`; more than
two do not compile. -/
def denseWith [Zero R] [Add R] [Mul R] (junkW junkY junkB : Nat → R) (act : Act R) (logits : Nat) (x : Tensor R) :
    List (Init R) → Alloc (Layer R)
  | [] => Layers.dense junkW junkY junkB act logits x Layers.noopInit Layers.noopInit
  | [w] => Layers.dense junkW junkY junkB act logits x w Layers.noopInit
  | [w, b] => Layers.dense junkW junkY junkB act logits x w b
  | _ => ⟨0, .ub⟩

/-- `composed::operator()` (models/sequential.hpp:54-60): the first layer lives until the call ends and is then released,
also when the second one throws. -/
def composed (f g : LayerFn R) : LayerFn R := fun x =>
  let y := f x
  match y.out with
  | .ok l => Alloc.freeing l.size ⟨y.live + (g l.output).live, (g l.output).out⟩
  | .throw e => ⟨y.live, .throw e⟩
  | .ub => ⟨y.live, .ub⟩

/-- `make_sequential()` (models/sequential.hpp:72-76). -/
def makeSequential [Zero R] (junk : Nat → R) : LayerFn R := Layers.identity junk

/-- `make_sequential() << l1 << ... << ln` (models/sequential.hpp:92-96). -/
def sequential [Zero R] (junk : Nat → R) (ls : List (LayerFn R)) : LayerFn R := ls.foldl composed (makeSequential junk)

end Models
end StdNN
