import Verif.Model.Models
/-!
# Specification of scoped names

A lexically scoped reading of the statements: the enclosing prefixes are an argument, there is no stack to restore.
-/
namespace StdNN.Spec
open NameScope

/-- The names joined by the separator. Leading empty names contribute nothing, not even a separator. -/
def joinPath (sep : List Char) (path : List (List Char)) : List Char :=
  List.intercalate sep (path.dropWhile fun s => s.isEmpty)

/-- The log and the outcome of a statement inside the prefixes `path`. -/
def meaning (sep : List Char) : List (List Char) → Stmt → List (List Char) × Outcome Unit
  | _, .skip => ([], .ok ())
  | path, .logPath => ([joinPath sep path], .ok ())
  | path, .logName name => ([joinPath sep (path ++ [name])], .ok ())
  | _, .throw e => ([], .throw e)
  | path, .with_ pre body => meaning sep (path ++ [pre]) body
  | path, .seq a b =>
    match meaning sep path a with
    | (l, .ok _) => (l ++ (meaning sep path b).1, (meaning sep path b).2)
    | r => r
  | path, .tryCatch a h =>
    match meaning sep path a with
    | (l, .throw _) => (l ++ (meaning sep path h).1, (meaning sep path h).2)
    | r => r

end StdNN.Spec
