import Verif.Model.Graph
import Verif.Spec.SearchSpec
/-! # Searches in the model -/
namespace Verif
open Spec
variable {W : Type} {env : Env W} {x : Str}

theorem search_eq {w : W} {r w'} (h : Search env x w r w') : resolveSpec env x w = (r, w') := by
  unfold resolveSpec
  cases h with
  | plain h => rw [h]
  | noPath h => rw [h]; rfl
  | odd h1 h2 h3 h4 => simp [h1, h2, h3, h4]
  | stuck h1 h2 => simp [h1, h2]
  | replaced h1 h2 h3 h4 => simp [h1, h2, h3, h4]
  | value h1 => simp [h1]
  | @failed e _ h h1 h2 =>
    rw [h]
    cases e with
    | valueError b => exact absurd rfl (h1 b)
    | attributeError b =>
      cases b with
      | true => exact absurd rfl h2
      | false => rfl
    | _ => rfl

theorem search_self (env : Env W) (x : Str) (w : W) : Search env x w (resolveSpec env x w).1 (resolveSpec env x w).2 := by
  unfold resolveSpec
  cases h : env.findSpec x w with
  | mk r w1 =>
    cases r with
    | ok r => exact .plain h
    | error e =>
      cases e with
      | valueError b =>
        cases b with
        | false => exact .value h
        | true =>
          simp only [Bool.not_true, Bool.false_eq_true, if_false]
          cases hp : env.popModule x w1 with
          | mk o w2 =>
            cases o with
            | error e => exact .stuck h hp
            | ok o =>
              cases hf : env.findSpec x w2 with
              | mk r w3 =>
                cases hi : env.inSysModules x w3 with
                | true => simpa [hf, hi] using Search.replaced h hp hf hi
                | false => simpa [hf, hi] using Search.odd h hp hf hi
      | attributeError b =>
        cases b with
        | true => exact .noPath h
        | false => exact .failed h (by simp) (by simp)
      | _ => exact .failed h (by simp) (by simp)

theorem search_iff {w : W} {r w'} : Search env x w r w' ↔ resolveSpec env x w = (r, w') :=
  ⟨search_eq, fun h => by have := search_self env x w; rwa [h] at this⟩

theorem locates_iff {w : W} {spec} : Locates env x w spec ↔ (resolveSpec env x w).1 = .ok (some spec) :=
  ⟨fun ⟨_, h⟩ => by rw [search_eq h], fun h => ⟨_, by have := search_self env x w; rwa [h] at this⟩⟩

end Verif
