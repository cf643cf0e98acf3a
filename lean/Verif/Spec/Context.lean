import Verif.Model.Context
/-
What C110 says of the macro's bookkeeping: nothing remains borrowed, answers are functions of the arguments alone, and the context
of a field is that of the field.
-/
namespace Verif.Spec.Context
open Verif.Model.Args Verif.Model.Structs Verif.Model.Context

/-- The answer to a question, from the arguments of the struct and of the field and nothing else. -/
def answer (a : StructArgs) (fs : List FieldArgs) : Ask → Bool
  | .ratherSync => (prepare a fs).isRatherSync
  | .needsBuilderStruct => (prepare a fs).needsBuilderStruct
  | .needsDefault => (prepare a fs).needsDefault
  | .isSync f => FCtx.isSync ⟨prepare a fs, f⟩
  | .needsBuilder f => FCtx.needsBuilder ⟨prepare a fs, f⟩

/-- Nothing is borrowed. -/
def Idle (s : St) : Prop := ∀ c, s.shared c = 0 ∧ s.alone c = false

/-- The fields have different names, the hidden one included. -/
def Distinct (a : StructArgs) (fs : List FieldArgs) : Prop := ((prepare a fs).allFields.map (·.ident)).Nodup

end Verif.Spec.Context
