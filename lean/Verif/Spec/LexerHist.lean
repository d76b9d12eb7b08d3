import Verif.Model.Lexer

namespace Verif.Lexer

/-- The states of an adapter which was built with the given permission of prefixes and called any number of times. -/
inductive Used (env : Env) (canPrefix : Bool) : St → Prop
  | fresh {st : St} : st.canPrefix = canPrefix → Used env canPrefix st
  | call {st st' : St} {fuel : Nat} {script : Str} {r : Out Token} : Used env canPrefix st →
      toToken env fuel script st = some (r, st') → Used env canPrefix st'

end Verif.Lexer
