import Verif.Proofs.WorldWalk
/-!
# C60: what building a graph does to `sys.modules`

`find_spec` consults `sys.modules`, and the code of modulegraph changes it in three places: it takes an
odd entry out for a second search and puts it back (584-590), it leaves a `FakePackage` for a package
that cannot be imported (624-633), and the SWIG hook puts one in and removes it again.
-/
namespace Verif.Props
open Verif Spec

section
variable {W : Type} {env : Env W} {get : W → Str → Option Nat} {fake : Nat → Prop}

/-- Entries are kept. -/
private def KeepR (get : W → Str → Option Nat) (a b : W) : Prop :=
  ∀ x o, get a x = some o → get b x = some o

/-- Entries are the same, or new and fake. -/
private def FakeR (env : Env W) (get : W → Str → Option Nat) (fake : Nat → Prop) (a b : W) : Prop :=
  ∀ x, get b x = get a x ∨
    (get a x = none ∧ (∃ o, fake o ∧ get b x = some o) ∧ Locatable env x)

/-- Taking the entry out and putting it back. -/
private theorem resolve_cases (hD : SysDict env get fake) (hS : Searches env get) (name : Str) (w : W)
    (P : W → Prop) (h1 : P (env.findSpec name w).2)
    (h2 : ∀ w1, (∀ y, get w1 y = get (env.findSpec name w).2 y) → P w1)
    (h3 : ∀ o w1, get (env.findSpec name w).2 name = some o →
      (∀ y, get w1 y = if y = name then none else get (env.findSpec name w).2 y) →
      P (env.setModule name o (env.findSpec name w1).2)) :
    P (resolveSpec env name w).2 := by
  unfold resolveSpec
  cases hf : env.findSpec name w with
  | mk r w1 =>
    rw [hf] at h1 h2 h3
    dsimp only at h1 h2 h3 ⊢
    cases r with
    | ok r => exact h1
    | error e =>
      cases e with
      | valueError specMsg =>
        dsimp only
        split
        · exact h1
        · cases hg : get w1 name with
          | none =>
            obtain ⟨⟨e, he⟩, hy⟩ := hD.popNone name w1 hg
            cases hp : env.popModule name w1 with
            | mk r w2 =>
              rw [hp] at he hy
              dsimp only at he hy
              subst he
              exact h2 w2 hy
          | some o =>
            obtain ⟨he, hy⟩ := hD.pop name w1 o hg
            cases hp : env.popModule name w1 with
            | mk r w2 =>
              rw [hp] at he hy
              dsimp only at he hy
              subst he
              dsimp only
              have h4 := h3 o w2 hg hy
              have h5 := hS.own name w2 (by rw [hy, if_pos rfl])
              change P (if env.inSysModules name (env.findSpec name w2).2 = true
                then ((.error .assertion : Except Exc (Option Spec)), (env.findSpec name w2).2)
                else ((env.findSpec name w2).1, env.setModule name o (env.findSpec name w2).2)).2
              rw [if_neg (by rw [hD.isIn, h5]; simp)]
              exact h4
      | attributeError pathMsg => dsimp only; split <;> exact h1
      | _ => exact h1

private theorem keep_rel (hD : SysDict env get fake) (hK : AllReads env (Keeps get))
    (hS : Searches env get) : WRel env (KeepR get) where
  refl _ _ _ h := h
  trans h1 h2 x o h := h2 x o (h1 x o h)
  resolve name w := by
    have h0 : KeepR get w (env.findSpec name w).2 := fun x o h => hK.findSpec name w x o h
    refine resolve_cases hD hS name w (KeepR get w) h0 (fun w1 h x o hx => ?_) fun o w1 ho h x o' hx => ?_
    · rw [h]; exact h0 x o hx
    · rw [hD.set]
      by_cases e : x = name
      · subst e
        rw [if_pos rfl, ← ho]
        exact h0 x o' hx
      · rw [if_neg e]
        refine hK.findSpec name w1 x o' ?_
        rw [h, if_neg e]
        exact h0 x o' hx
  findSpec x w := fun y o h => hK.findSpec x w y o h
  findSpecRel x p w := fun y o h => hK.findSpecRel x p w y o h
  isPackage x w := fun y o h => hK.isPackage x w y o h
  nodeForSpec x w := fun y o h => hK.nodeForSpec x w y o h
  loadScript x w := fun y o h => hK.loadScript x w y o h
  parseSource x w := fun y o h => hK.parseSource x w y o h
  distributionNamed x w := fun y o h => hK.distributionNamed x w y o h
  globPy x w := fun y o h => hK.globPy x w y o h
  subdirs x w := fun y o h => hK.subdirs x w y o h
  isFile x w := fun y o h => hK.isFile x w y o h
  readBytes x w := fun y o h => hK.readBytes x w y o h
  compileAst x w := fun y o h => hK.compileAst x w y o h
  fake parent dir spec w hin h1 h2 x o h := by
    rw [hD.isIn] at hin
    have hx : x ≠ parent := by
      rintro rfl
      rw [h] at hin
      simp at hin
    rw [(hD.setFake parent dir _).2 x hx]
    exact hK.isPackage spec _ x o (hK.findSpec parent w x o h)
  swig missing pkg dir spec w e he hie hsp := by
    have hn := hS.relative missing pkg w e he ((importFails_iff e).mp hie)
    have hne : ∀ x o, get w x = some o → x ≠ pkg := by
      rintro x o h rfl
      rw [hK.findSpecRel missing x w x o h] at hn
      cases hn
    have h1 : KeepR get w (env.findSpecRel missing pkg
        (env.setFake pkg dir (env.findSpec pkg (env.findSpecRel missing pkg w).2).2)).2 := by
      intro x o h
      refine hK.findSpecRel missing pkg _ x o ?_
      rw [(hD.setFake pkg dir _).2 x (hne x o h)]
      exact hK.findSpec pkg _ x o (hK.findSpecRel missing pkg w x o h)
    refine ⟨h1, fun x o h => ?_⟩
    rw [(hD.del pkg _).2 x (hne x o h)]
    exact h1 x o h

private theorem fake_rel (hD : SysDict env get fake) (hK : AllReads env (Leaves get))
    (hS : Searches env get) : WRel env (FakeR env get fake) where
  refl _ _ := .inl rfl
  trans {a b c} h1 h2 x := by
    rcases h1 x with h1 | ⟨h1, ⟨o, h3, h4⟩, h5⟩
    · rcases h2 x with h2 | ⟨h2, h3⟩
      · exact .inl (h2.trans h1)
      · exact .inr ⟨h1 ▸ h2, h3⟩
    · rcases h2 x with h2 | ⟨h2, _⟩
      · exact .inr ⟨h1, ⟨o, h3, h2.trans h4⟩, h5⟩
      · rw [h4] at h2; cases h2
  resolve name w := by
    have h0 : ∀ y, get (env.findSpec name w).2 y = get w y := fun x => hK.findSpec name w x
    refine resolve_cases hD hS name w (FakeR env get fake w) (fun x => .inl (h0 x))
      (fun w1 h x => .inl ((h x).trans (h0 x))) fun o w1 ho h x => .inl ?_
    rw [hD.set]
    by_cases e : x = name
    · subst e
      rw [if_pos rfl, ← h0, ho]
    · rw [if_neg e, hK.findSpec name w1, h, if_neg e, h0]
  findSpec x w := fun y => .inl (hK.findSpec x w y)
  findSpecRel x p w := fun y => .inl (hK.findSpecRel x p w y)
  isPackage x w := fun y => .inl (hK.isPackage x w y)
  nodeForSpec x w := fun y => .inl (hK.nodeForSpec x w y)
  loadScript x w := fun y => .inl (hK.loadScript x w y)
  parseSource x w := fun y => .inl (hK.parseSource x w y)
  distributionNamed x w := fun y => .inl (hK.distributionNamed x w y)
  globPy x w := fun y => .inl (hK.globPy x w y)
  subdirs x w := fun y => .inl (hK.subdirs x w y)
  isFile x w := fun y => .inl (hK.isFile x w y)
  readBytes x w := fun y => .inl (hK.readBytes x w y)
  compileAst x w := fun y => .inl (hK.compileAst x w y)
  fake parent dir spec w hin h1 h2 x := by
    rw [hD.isIn] at hin
    by_cases hx : x = parent
    · subst hx
      exact .inr ⟨by simpa using hin, (hD.setFake x dir _).1, spec, w, h1⟩
    · left
      rw [(hD.setFake parent dir _).2 x hx, hK.isPackage spec, hK.findSpec parent]
  swig missing pkg dir spec w e he hie hsp := by
    have hn := hS.relative missing pkg w e he ((importFails_iff e).mp hie)
    rw [hK.findSpecRel missing pkg w] at hn
    have h1 : ∀ x, x ≠ pkg → get (env.findSpecRel missing pkg
        (env.setFake pkg dir (env.findSpec pkg (env.findSpecRel missing pkg w).2).2)).2 x = get w x := by
      intro x hx
      rw [hK.findSpecRel missing pkg, (hD.setFake pkg dir _).2 x hx, hK.findSpec pkg,
        hK.findSpecRel missing pkg]
    have h2 : ∃ o, fake o ∧ get (env.findSpecRel missing pkg
        (env.setFake pkg dir (env.findSpec pkg (env.findSpecRel missing pkg w).2).2)).2 pkg = some o := by
      rw [hK.findSpecRel missing pkg]
      exact (hD.setFake pkg dir _).1
    refine ⟨fun x => ?_, fun x => ?_⟩
    · by_cases hx : x = pkg
      · subst hx
        exact .inr ⟨hn, h2, spec, _, hsp⟩
      · exact .inl (h1 x hx)
    · left
      by_cases hx : x = pkg
      · subst hx
        obtain ⟨o, _, ho⟩ := h2
        rw [(hD.del x _).1 (by rw [ho]; simp), hn]
      · rw [(hD.del pkg _).2 x hx, h1 x hx]

/-- **C60.** Whatever a client does with a graph, and whether or not calls fail, every entry that
`sys.modules` had before is still there, with the same object: the entry that is taken out for a second
search is put back.  `hS` excludes two cases in which entries do get lost (`C60_lost`,
`C60_swig_lost`). -/
theorem C60_kept (hD : SysDict env get fake) (hK : AllReads env (Keeps get)) (hS : Searches env get)
    (hU : ∀ k n, (env.userPost k n).Calm) (hM : ∀ k i n, (env.userMissing k i n).Calm)
    (n : Nat) {p : Hook W} (hp : p.Calm) (s : St W) {x : Str} {o : Nat}
    (h : get s.world x = some o) : get (runClient env n p s).2.world x = some o :=
  WS.interp (keep_rel hD hK hS) (calls_ws (keep_rel hD hK hS) hU hM n) hp s x o h

/-- **C60.** If searching and reading do not change `sys.modules`, building a graph changes nothing
but this: modules that can be located, and had no entry, may have a `FakePackage` there afterwards. -/
theorem C60_only_fakes (hD : SysDict env get fake) (hK : AllReads env (Leaves get))
    (hS : Searches env get) (hU : ∀ k n, (env.userPost k n).Calm)
    (hM : ∀ k i n, (env.userMissing k i n).Calm) (n : Nat) {p : Hook W} (hp : p.Calm) (s : St W)
    (x : Str) :
    get (runClient env n p s).2.world x = get s.world x ∨
    (get s.world x = none ∧ (∃ o, fake o ∧ get (runClient env n p s).2.world x = some o) ∧
      Locatable env x) :=
  WS.interp (fake_rel hD hK hS) (calls_ws (fake_rel hD hK hS) hU hM n) hp s x

end

/-! ## A concrete dictionary -/

/-- `sys.modules`, fakes are `0`. -/
structure Dict where
  items : List (Str × Nat)
deriving DecidableEq

namespace Dict
def get (d : Dict) (x : Str) : Option Nat := (d.items.find? fun p => p.1 == x).map Prod.snd
def del (d : Dict) (x : Str) : Dict := ⟨d.items.filter fun p => p.1 != x⟩
def set (d : Dict) (x : Str) (o : Nat) : Dict := ⟨(x, o) :: (d.del x).items⟩

theorem get_del (d : Dict) (x y : Str) : (d.del x).get y = if y = x then none else d.get y := by
  obtain ⟨d⟩ := d
  unfold get del
  dsimp only
  induction d with
  | nil => simp
  | cons p d ih =>
    by_cases h1 : p.1 = x
    · rw [List.filter_cons_of_neg (by simp [h1]), ih]
      by_cases h2 : y = x
      · simp [h2]
      · rw [if_neg h2, if_neg h2, List.find?_cons_of_neg]
        simp [h1, Ne.symm h2]
    · rw [List.filter_cons_of_pos (by simp [h1])]
      by_cases h3 : p.1 = y
      · rw [List.find?_cons_of_pos (by simp [h3]), List.find?_cons_of_pos (by simp [h3]),
          if_neg (by rw [← h3]; exact h1)]
      · rw [List.find?_cons_of_neg (by simp [h3]), List.find?_cons_of_neg (by simp [h3]), ih]

theorem get_set (d : Dict) (x y : Str) (o : Nat) :
    (d.set x o).get y = if y = x then some o else d.get y := by
  by_cases h : y = x
  · subst h; simp [get, set]
  · have := get_del d x y
    rw [if_neg h] at this ⊢
    rw [← this]
    unfold get set
    rw [List.find?_cons_of_neg (by simp [Ne.symm h])]

/-- An environment around a `find_spec`. -/
def env (find : Str → Ext Dict (Option Spec)) (rel : Str → Str → Ext Dict (Option Spec))
    (node : Spec → Node) : Env Dict where
  findSpec := find
  findSpecRel := rel
  inSysModules x w := (w.get x).isSome
  popModule x w := match w.get x with | some o => (.ok o, w.del x) | none => (.error .keyError, w)
  setModule x o w := w.set x o
  setFake x _ w := w.set x 0
  delModule x w := (.ok (), w.del x)
  isInspectLoader _ _ := true
  isPackage sp w := (.ok sp.searchLocations.isSome, w)
  nodeForSpec sp w := (.ok (node sp, []), w)
  loadScript _ w := (.error .osError, w)
  parseSource _ w := (.error .syntaxError, w)
  distributionNamed _ w := (.ok none, w)
  globPy _ w := (.ok [], w)
  subdirs _ w := (.ok [], w)
  isIdentifier n := !n.isEmpty
  outOrder _ l := l
  isFile _ w := (.ok false, w)
  readBytes _ w := (.error .osError, w)
  compileAst _ w := (.error .syntaxError, w)
  userPost _ _ := .ret none
  userMissing _ _ _ := .ret none

theorem dict (find rel node) : SysDict (env find rel node) get (· = 0) where
  isIn _ _ := rfl
  pop x w o h := by
    simp only [env, h]
    exact ⟨trivial, get_del w x⟩
  popNone x w h := by
    simp only [env, h]
    exact ⟨⟨_, rfl⟩, fun _ => trivial⟩
  set x o w y := get_set w x y o
  setFake x d w := ⟨⟨0, rfl, by simp [env, get_set]⟩, fun y hy => by simp [env, get_set, hy]⟩
  del x w := ⟨fun _ => by simp [env, get_del], fun y hy => by simp [env, get_del, hy]⟩

/-- The nodes: packages and source modules. -/
def node (sp : Spec) : Node :=
  { ident := sp.name,
    kind := match sp.searchLocations with
      | some l => .package false { name := c!"__init__", kind := .source } l false none
      | none => .module .source }

/-- `p` is a package that cannot be imported, `p.m` is a module in it; `odd` is in `sys.modules`
without a `__spec__`. -/
def odd : Env Dict :=
  env (fun x w =>
      if x = c!"p" then (.ok (some ⟨x, .inspect, some c!"/p/__init__.py", some [c!"/p"]⟩), w)
      else if x = c!"p.m" then
        if (w.get c!"p").isSome then (.ok (some ⟨x, .inspect, some c!"/p/m.py", none⟩), w)
        else (.error (.runtimeError), w)
      else if x = c!"odd" then
        if (w.get x).isSome then (.error (.valueError true), w)
        else (.ok (some ⟨x, .inspect, some c!"/odd.py", none⟩), w)
      else (.ok none, w))
    (fun _ _ w => (.ok none, w)) node

theorem odd_leaves : AllReads odd (Leaves get) where
  findSpec x w y := by
    simp only [odd, env]
    repeat' split
    all_goals rfl
  findSpecRel _ _ _ _ := rfl
  isPackage _ _ _ := rfl
  nodeForSpec _ _ _ := rfl
  loadScript _ _ _ := rfl
  parseSource _ _ _ := rfl
  distributionNamed _ _ _ := rfl
  globPy _ _ _ := rfl
  subdirs _ _ _ := rfl
  isFile _ _ _ := rfl
  readBytes _ _ _ := rfl
  compileAst _ _ _ := rfl

theorem odd_searches : Searches odd get where
  own x w h := by rw [odd_leaves.findSpec x w]; exact h
  isPackage _ _ _ h := h
  relative _ _ _ _ h := by simp [odd, env] at h

end Dict

/-- A client that adds modules. -/
def addAll : List Str → Hook Dict
  | [] => .ret none
  | x :: l => .call (.addModule x) fun _ => addAll l

theorem addAll_calm (l : List Str) : (addAll l).Calm := by
  induction l with
  | nil => exact .ret _
  | cons x l ih => exact .call fun _ => ih

/-- The hypotheses of the theorems hold of this world; the entry `odd`, which is taken out and put
back, is there afterwards, and there is a fake for `p`: additions do happen. -/
theorem C60_fake_left :
    AllReads Dict.odd (Leaves Dict.get) ∧ Searches Dict.odd Dict.get ∧
    let s := (runClient Dict.odd 20 (addAll [c!"odd", c!"p.m"]) (initState ⟨[(c!"odd", 7)]⟩ [] false)).2
    s.world = ⟨[(c!"p", 0), (c!"odd", 7)]⟩ ∧ s.nodes.map Node.ident = [c!"odd", c!"p", c!"p.m"] :=
  ⟨Dict.odd_leaves, Dict.odd_searches, by decide +kernel⟩

/-- `find_spec("odd")` imports `odd`. -/
def Dict.lossy : Env Dict :=
  Dict.env (fun x w =>
      if (w.get x).isSome then (.error (.valueError true), w)
      else (.ok (some ⟨x, .inspect, some c!"/odd.py", none⟩), w.set x 8))
    (fun _ _ w => (.ok none, w)) Dict.node

/-- Entries get lost when `find_spec` puts the module itself in `sys.modules` while the original entry
is taken out: the assertion at 589 fails before the entry is put back. -/
theorem C60_lost : SysDict Dict.lossy Dict.get (· = 0) ∧
    Dict.get ⟨[(c!"odd", 7)]⟩ c!"odd" = some 7 ∧
    Dict.get (runClient Dict.lossy 20 (addAll [c!"odd"]) (initState ⟨[(c!"odd", 7)]⟩ [] false)).2.world
      c!"odd" = some 8 :=
  ⟨Dict.dict _ _ _, by decide, by decide +kernel⟩

/-- The entry for `p` is an object that cannot be searched, and `p.a` is the SWIG wrapper of `p._a`. -/
def Dict.swigEnv : Env Dict :=
  Dict.env (fun x w =>
      if x = c!"p" then (.ok (some ⟨x, .inspect, some c!"/p/__init__.py", some [c!"/p"]⟩), w)
      else if x = c!"p.a" then (.ok (some ⟨x, .inspect, some c!"/p/a.py", none⟩), w)
      else (.ok none, w))
    (fun x p w =>
      if w.get p = some 0 then (.ok (some ⟨p ++ '.' :: x, .extension, none, none⟩), w)
      else (.error .importError, w))
    fun sp => if sp.name = c!"p._a" then { ident := sp.name, kind := .module .extension }
      else { Dict.node sp with globalsWritten := [c!"swig_import_helper"] }

/-- The SWIG hook removes the entry of the package in `sys.modules`, whether or not it was there
before. -/
theorem C60_swig_lost : SysDict Dict.swigEnv Dict.get (· = 0) ∧
    let s := (runClient Dict.swigEnv 20
      (.call (.addModule c!"p.a") fun _ =>
        .call (.importModule { Dict.node ⟨c!"p.a", .inspect, some c!"/p/a.py", none⟩ with
          globalsWritten := [c!"swig_import_helper"] } c!"_a") fun _ => .ret none)
      (initState ⟨[(c!"p", 7)]⟩ [] true)).2
    Dict.get s.world c!"p" = none ∧ s.nodes.map Node.ident = [c!"p", c!"p.a", c!"_a"] :=
  ⟨Dict.dict _ _ _, by decide +kernel⟩

end Verif.Props
