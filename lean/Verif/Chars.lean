/-!
Literal lists of characters, written as texts: `chars! "ab"` stands for `['a', 'b']`.
-/
namespace Verif

open Lean in
macro "chars! " s:str : term => do
  let cs : Array (TSyntax `term) := (s.getString.toList.map fun c => (⟨Syntax.mkCharLit c⟩ : TSyntax `term)).toArray
  `([$cs,*])

end Verif
