import Verif.Spec.HookSpec
/-! # Hooks that ask for more modules -/
namespace Verif
variable {W : Type}

/-- The code calls `o`, whatever it sees, as long as its calls return and it does not raise. -/
inductive Hook.Asks (o : ApiOp) : Hook W → Prop where
  | here {k} : Hook.Asks o (.call o k)
  | call {o' k} : (∀ r, Hook.Asks o (k (.ok r))) → Hook.Asks o (.call o' k)
  | look {k} : (∀ s, Hook.Asks o (k s)) → Hook.Asks o (.look k)
  | setWorld {w k} : Hook.Asks o k → Hook.Asks o (.setWorld w k)
  | raise {e} : Hook.Asks o (.raise e)

namespace Spec

/-- Register these hooks, then go on with `p`. -/
def register : List PostHook → Hook W → Hook W
  | [], p => p
  | h :: hs, p => .call (.addPostHook h) fun _ => register hs p

end Spec
end Verif
