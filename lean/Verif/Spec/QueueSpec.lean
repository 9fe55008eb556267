import Verif.Model.Graph
/-!
# Vocabulary for the history of a run and for pending work
-/
namespace Verif.Spec
variable {W : Type}

/-- All work that is waiting: the queue, and the parts set aside while `import_package` runs. -/
def pending (s : St W) : List Item := s.hidden ++ s.stack

/-- Is this the post-processing of the node called `id`? -/
def isPp (id : Str) : Item → Bool
  | .pp n => n.ident == id
  | _ => false

/-- Is this the processing of import statement `i` of the node called `id`? -/
def isImp (id : Str) (i : ImportInfo) : Item → Bool
  | .imp n j => n.ident == id && j == i
  | _ => false

/-- Is this an import statement of the node called `id`? -/
def isImpOf (id : Str) : Item → Bool
  | .imp n _ => n.ident == id
  | _ => false

/-- Is this an import statement of any node? -/
def isAnyImp : Item → Bool
  | .imp _ _ => true
  | _ => false

/-- Was such an item taken from the queue? -/
def isStart (f : Item → Bool) : Event → Bool
  | .started it => f it
  | _ => false

/-- Was statement `i` of node `id` completed? -/
def isImported (id : Str) (i : ImportInfo) : Event → Bool
  | .imported id' j _ => id' == id && j == i
  | _ => false

/-- How often post-processing of the node called `id` waits. -/
def ppPending (id : Str) (l : List Item) : Nat := l.countP (isPp id)
/-- How often post-processing of the node called `id` was started. -/
def ppStarted (id : Str) (log : List Event) : Nat := log.countP (isStart (isPp id))
/-- How often processing of import statement `i` of node `id` waits. -/
def impPending (id : Str) (i : ImportInfo) (l : List Item) : Nat := l.countP (isImp id i)
/-- How often processing of import statement `i` of node `id` was started. -/
def impStarted (id : Str) (i : ImportInfo) (log : List Event) : Nat :=
  log.countP (isStart (isImp id i))
/-- How often it was completed. -/
def impDone (id : Str) (i : ImportInfo) (log : List Event) : Nat := log.countP (isImported id i)

/-- How often the statement `i` was found in scans of the node called `id`. -/
def impFound (id : Str) (i : ImportInfo) : List Event → Nat
  | [] => 0
  | .scheduled id' infos :: l => (if id' = id then infos.count i else 0) + impFound id i l
  | _ :: l => impFound id i l

/-- The imports of the node called `id` were scanned (possibly there were none). -/
def Scanned (id : Str) (log : List Event) : Prop := ∃ infos, Event.scheduled id infos ∈ log

end Verif.Spec

namespace Verif.Spec

/-- The post-processing hooks called for the node called `id`, in order. -/
def calledFor (id : Str) (log : List Event) : List PostHook :=
  log.filterMap fun e => match e with
    | .called h id' => if id' = id then some h else none
    | _ => none

end Verif.Spec
