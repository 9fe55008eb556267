import Verif.Model.Distributions
/-!
# Model of the generator `all_distributions` with any consumer

`Distributions.lean` has `all_distributions` for the searches of the library.  Here the body of the loop of the consumer may
change the world and look up distributions itself; it runs while the generator is suspended at line 158.  The path is a list that
does not change while the generator runs.
-/
namespace Verif
variable {W : Type} (env : DistEnv W)

/-- How a loop over the generator ends: the generator is exhausted, the consumer leaves the loop (with `break` or an exception in
its body), or the generator raises an exception. -/
inductive LoopEnd where
  | done
  | left
  | raised (e : Exc)
deriving DecidableEq

/-- The distributions yielded, how the loop ended, and the state. -/
structure Looped (W : Type) where
  visited : List DObj
  ending : LoopEnd
  state : DSt W

def Looped.after (l : List DObj) (r : Looped W) : Looped W := { r with visited := l ++ r.visited }

/-- `_distributions.py` 145-158.  `body` says whether the consumer leaves the loop. -/
def iterDir (body : DObj → DSt W → Bool × DSt W) (entry : Str) : List Str → DSt W → Looped W
  | [], s => ⟨[], .done, s⟩
  | fname :: rest, s =>
    if !endsWith c!".dist-info" fname then iterDir body entry rest s
    else
      match cachedDistribution env (pathJoin entry fname) s with
      | (.error e, s) => ⟨[], .raised e, s⟩
      | (.ok o, s) =>
        match body o s with
        | (true, s) => ⟨[o], .left, s⟩
        | (false, s) => (iterDir body entry rest s).after [o]

/-- `_distributions.py` 143-161. -/
def iterPath (body : DObj → DSt W → Bool × DSt W) : List Str → DSt W → Looped W
  | [], s => ⟨[], .done, s⟩
  | entry :: rest, s =>
    match env.listdir entry s.world with
    | (.error e, w) =>
      if e = .osError then iterPath body rest { s with world := w } else ⟨[], .raised e, { s with world := w }⟩
    | (.ok names, w) =>
      match iterDir env body entry names { s with world := w } with
      | ⟨l, .done, s⟩ => (iterPath body rest s).after l
      | ⟨l, .left, s⟩ => ⟨l, .left, s⟩
      | ⟨l, .raised e, s⟩ => if e = .osError then (iterPath body rest s).after l else ⟨l, .raised e, s⟩

/-- `_distributions.py` 131-161, `for dist in all_distributions(path): body`. -/
def iterDistributions (body : DObj → DSt W → Bool × DSt W) (path : Option (List Str)) (s : DSt W) : Looped W :=
  iterPath env body (path.getD (env.sysPath s.world)) s

end Verif
