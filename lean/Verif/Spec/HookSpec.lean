import Verif.Model.Graph
/-! # Restrictions on what hooks do -/
namespace Verif
variable {W : Type}

/-- API operations that do not take items from the work stack. -/
def ApiOp.NoRun : ApiOp → Prop
  | .importModule _ _ | .addMissingHook _ | .addPostHook _ | .addExcludes _ | .addExcludesStr _
  | .addImplies _ | .addNode _ | .addEdge _ _ _ | .addRoot _ | .processImportList _ _ => True
  | _ => False

/-- Hook code that only uses operations in `P`, whatever it sees. -/
inductive Hook.Only (P : ApiOp → Prop) : Hook W → Prop where
  | ret (r) : Hook.Only P (.ret r)
  | raise (e) : Hook.Only P (.raise e)
  | look {k} : (∀ s, Hook.Only P (k s)) → Hook.Only P (.look k)
  | setWorld {w k} : Hook.Only P k → Hook.Only P (.setWorld w k)
  | call {op k} : P op → (∀ r, Hook.Only P (k r)) → Hook.Only P (.call op k)

/-- Operations other than the registration of post-processing hooks. -/
def ApiOp.NoReg : ApiOp → Prop
  | .addPostHook _ => False
  | _ => True

end Verif

namespace Verif.Spec
variable {W : Type}

/-- What a missing hook does (within some recursion depth `d`). -/
def missCode (env : Env W) (d : Nat) (importing : Option Node) (name : Str) :
    MissHook → M W (Option Node)
  | .swig => swigHook env importing name
  | .user k => interp (calls env d) (env.userMissing k importing name)

/-- What a post-processing hook does; its result is ignored. -/
def postCode (env : Env W) (d : Nat) (node : Node) : PostHook → M W Unit
  | .mypyc => mypycHook env (calls env d) node
  | .user k => M.bind (interp (calls env d) (env.userPost k node)) fun _ => M.pure ()

/-- Asking the hooks one after the other from the front of the list until one supplies a node or
raises: the outcome and the state after that.  Each call is recorded in the log. -/
inductive AskChain (env : Env W) (importing : Option Node) (name : Str) :
    List MissHook → St W → Except Exc (Option Node) → St W → Prop where
  | none_left (s) : AskChain env importing name [] s (.ok none) s
  | supplied {h rest s node s'} (d : Nat) :
      missCode env d importing name h (s.event (.asked h name importing)) = (.ok (some node), s') →
      AskChain env importing name (h :: rest) s (.ok (some node)) s'
  | raised {h rest s e s'} (d : Nat) :
      missCode env d importing name h (s.event (.asked h name importing)) = (.error e, s') →
      AskChain env importing name (h :: rest) s (.error e) s'
  | next {h rest s s1 r s'} (d : Nat) :
      missCode env d importing name h (s.event (.asked h name importing)) = (.ok none, s1) →
      AskChain env importing name rest s1 r s' →
      AskChain env importing name (h :: rest) s r s'

/-- Calling all hooks one after the other from the front of the list, unless one raises. -/
inductive CallChain (env : Env W) (node : Node) :
    List PostHook → St W → Except Exc Unit → St W → Prop where
  | none_left (s) : CallChain env node [] s (.ok ()) s
  | raised {h rest s e s'} (d : Nat) :
      postCode env d node h (s.event (.called h node.ident)) = (.error e, s') →
      CallChain env node (h :: rest) s (.error e) s'
  | next {h rest s s1 r s'} (d : Nat) :
      postCode env d node h (s.event (.called h node.ident)) = (.ok (), s1) →
      CallChain env node rest s1 r s' →
      CallChain env node (h :: rest) s r s'

/-- The missing hooks asked for `name`, in order. -/
def askedFor (name : Str) (log : List Event) : List MissHook :=
  log.filterMap fun e => match e with
    | .asked h n _ => if n = name then some h else none
    | _ => none

end Verif.Spec
