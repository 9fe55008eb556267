import Verif.Proofs.Told
import Verif.Props.Recipes
/-!
# C81: missing hooks are told which node imports the missing module

`_callback_list.py` 102-121 passes the importing node on to the hooks.  `ToldSpec` describes which node that
is; it follows from the statements, the configuration and the calls, and does not mention the queue.
-/
namespace Verif.Props
open Verif Spec
variable {W : Type}

/-- What the client or the table for the standard library says about modules. -/
def Says (A : ApiOp → Prop) (stdlib : List (Str × Implies)) (x : Str) (v : Implies) : Prop :=
  (x, v) ∈ stdlib ∨ ∃ l, A (.addImplies l) ∧ (x, v) ∈ l

theorem initial_told (env : Env W) (A : ApiOp → Prop) (w : W) (stdlib : List (Str × Implies)) (builtin : Bool) :
    TInv env A (Says A stdlib) (initState w stdlib builtin) := by
  have h : ∀ (l : List (Str × Implies)) (t : St W), (∀ p ∈ l, p ∈ stdlib) → TInv env A (Says A stdlib) t →
      TInv env A (Says A stdlib) (l.foldl addImply t) := by
    intro l
    induction l with
    | nil => exact fun t _ h1 => h1
    | cons p l ih =>
      intro t hl h1
      refine ih _ (fun q hq => hl q (List.mem_cons_of_mem _ hq)) ?_
      unfold addImply
      split
      · exact h1
      · refine h1.next ⟨fun _ h => h, fun _ h => h⟩ (fun _ _ _ h => h) (fun _ h => .inl h) (fun y v hv => ?_)
        simp only [] at hv
        split at hv
        · rename_i he
          cases hv
          exact .inr (.inr (.inl (he ▸ hl p (by simp))))
        · exact .inl hv
  have h0 : TInv env A (Says A stdlib)
      (stdlib.foldl addImply { world := w, lazy := fun k => if k = c!"__main__" then some .excluded else none }) := by
    refine h stdlib _ (fun _ h => h) ⟨by simp, by simp [pending], fun x v hv => ?_⟩
    simp only [] at hv
    split at hv
    · cases hv; exact .inl rfl
    · cases hv
  unfold initState
  split
  · exact h0.same ⟨fun _ h => h, fun _ h => h⟩ (fun _ _ _ h => h) (fun _ h => h) rfl
  · exact h0

section
variable (env : Env W) (A : ApiOp → Prop) (hA : ∀ n infos, ¬ A (.processImportList n infos))
  (hP : ∀ k n, (env.userPost k n).Only A) (hM : ∀ k i n, (env.userMissing k i n).Passive)
  (n : Nat) (p : Hook W) (hp : p.Only A) (w : W) (stdlib : List (Str × Implies)) (builtin : Bool)
include hA hP hM hp

/-- **C81.**  Any client and hooks that use the operations in `A` (for post-processing) or do not use the graph
(for missing modules): every question to a hook for missing modules names a node that makes the module
necessary, and names no node only when no node does. -/
theorem C81_told :
    let s := (runClient env n p (initState w stdlib builtin)).2
    ∀ h x i, Event.asked h x i ∈ s.log → Told env A (Says A stdlib) s.nodes s.log i x :=
  (Tr.only (calls_told hA (fun _ hl _ _ hx => .inr ⟨_, hl, hx⟩) hP hM n) hp
    (initial_told env A w stdlib builtin)).1.asks

/-- The node is in the graph, unless it comes from a call of `import_module` with another node. -/
theorem C81_in_graph (hI : ∀ m x, ¬ A (.importModule m x)) :
    let s := (runClient env n p (initState w stdlib builtin)).2
    ∀ h x m, Event.asked h x (some m) ∈ s.log → m ∈ s.nodes := by
  intro s h x m hx
  have ht := C81_told env A hA hP hM n p hp w stdlib builtin h x (some m) hx
  clear hx
  generalize hi : some m = i at ht
  induction ht with
  | file _ _ h | statement h | fromName h | sixMoves h | alias h | implied h => cases hi; exact h
  | call h => exact absurd h (hI _ _)
  | package _ _ ih => exact ih hi
  | _ => cases hi

end

/-! ## An example -/

/-- `a` imports `lost`; the package `p` has a file that cannot be found. -/
def toldTable : Demo.Table where
  mods := [(c!"a", Demo.src c!"a", [Demo.imp c!"lost"]), (c!"p", Demo.pkg c!"p" [c!"/p"], [])]
  pyFiles := [(c!"/p", [c!"m"])]

/-- `a` implies `gone.x` and `z` is another name for `nowhere`. -/
def toldOps : List ApiOp :=
  [.addImplies [(c!"a", .refs [c!"gone.x"]), (c!"z", .alias c!"nowhere")],
    .addModule c!"a", .addModule c!"z", .addModule c!"q", .importPackage (Demo.src c!"a") c!"p"]

def toldRun : Except Exc (Option Node) × St Unit :=
  runClient (Demo.env toldTable) (39 + 1) (Demo.client toldOps) (initState () [] true)

def asks (log : List Event) : List (Str × Option Str) :=
  log.filterMap fun | .asked _ x i => some (x, i.map Node.ident) | _ => none

/-- Everything that is missing, and the nodes that the hooks are told. -/
theorem told_asks : asks toldRun.2.log =
    [(c!"gone", some c!"a"), (c!"gone.x", some c!"a"), (c!"lost", some c!"a"), (c!"nowhere", some c!"z"),
      (c!"q", none), (c!"p.m", some c!"p")] := by decide +kernel

theorem client_only (l l' : List ApiOp) (h : ∀ o ∈ l', o ∈ l) : (Demo.client l').Only (· ∈ l) := by
  induction l' with
  | nil => exact .look fun _ => .ret _
  | cons o l' ih => exact .call (h o (by simp)) fun _ => ih fun o ho => h o (List.mem_cons_of_mem _ ho)

/-- The hypotheses are met. -/
example : ∀ h x i, Event.asked h x i ∈ toldRun.2.log →
    Told (Demo.env toldTable) (· ∈ toldOps) (Says (· ∈ toldOps) []) toldRun.2.nodes toldRun.2.log i x := by
  have h := C81_told (Demo.env toldTable) (· ∈ toldOps) (by simp [toldOps]) (fun _ _ => .ret _) (fun _ _ _ => .ret)
    40 (Demo.client toldOps) (client_only _ _ fun _ h => h) () [] true
  have e : runClient (Demo.env toldTable) 40 (Demo.client toldOps) (initState () [] true) = toldRun := by unfold toldRun; rfl
  rw [e] at h
  exact h

/-- The description is not met by `None` for a module that only a statement asks for. -/
example (log : List Event) : ¬ Told (Demo.env toldTable) (· ∈ [.addModule c!"a"]) (Says (· ∈ [.addModule c!"a"]) [])
    [Demo.src c!"a", { ident := c!"lost", kind := .missing }] log none c!"lost" := by
  intro h
  have key : ∀ i x, Told (Demo.env toldTable) (· ∈ [.addModule c!"a"]) (Says (· ∈ [.addModule c!"a"]) [])
    [Demo.src c!"a", { ident := c!"lost", kind := .missing }] log i x → i = none → x = c!"a" := by
    intro i x h hi
    induction h with
    | asked h _ h3 => simp at h; subst h; cases h3; rfl
    | distribution h h2 => simp at h; rcases h with rfl | rfl <;> cases h2
    | whole h => simp at h
    | directory h hd =>
      exfalso
      clear hd hi
      induction h with
      | asked h => simp at h
      | file _ _ ih | dir _ _ ih => exact ih
    | mypyc h h2 => simp at h; rcases h with rfl | rfl <;> cases h2
    | behind h h2 => simp at h; rcases h with rfl | rfl <;> cases h2
    | explicitNamespace h h2 => simp at h; rcases h with rfl | rfl <;> cases h2
    | @package i x p _ h2 ih =>
      have := ih hi
      subst this
      obtain ⟨x, -, h | ⟨h1, h2, h⟩⟩ := h2
      · have := congrArg ('.' ∈ ·) h
        simp at this
      · cases p with
        | nil => exact absurd rfl h1
        | cons c p =>
          have := h2 c (by simp)
          subst this
          simp at h
    | _ => cases hi
  exact absurd (key _ _ h rfl) (by decide)

end Verif.Props
