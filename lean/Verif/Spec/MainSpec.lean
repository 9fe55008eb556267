import Verif.Model.Main
import Verif.Spec.ReachSpec
/-!
# Specification of the command line
-/
namespace Verif.Spec
open Verif
variable {W : Type}

/-- Lists behave like lists: what was assigned is the contents, and assigning to the contents of a
list does not bind `sys.path` to another list. -/
structure SysPathOk (sp : SysPath W) : Prop where
  contents_assign : ∀ r l w, sp.contents (sp.assign r l w) r = l
  ref_assign : ∀ r l w, sp.ref (sp.assign r l w) = sp.ref w
  ref_invalidate : ∀ w, sp.ref (sp.invalidate w) = sp.ref w
  contents_invalidate : ∀ w r, sp.contents (sp.invalidate w) r = sp.contents w r

/-- The `-m`, `-s` and `-d` options. -/
def nodeTypes (argv : List Arg) : List NodeType :=
  argv.filterMap fun x => match x with | .nodeType t => some t | _ => none
/-- The values of the `-p` options. -/
def paths (argv : List Arg) : List Str :=
  argv.filterMap fun x => match x with | .path p => some p | _ => none
/-- The values of the `-f` options. -/
def formats (argv : List Arg) : List Str :=
  argv.filterMap fun x => match x with | .format p => some p | _ => none
/-- The values of the `-o` options. -/
def outputs (argv : List Arg) : List Str :=
  argv.filterMap fun x => match x with | .output p => some p | _ => none
/-- The groups of positional arguments. -/
def groups (argv : List Arg) : List (List Str) :=
  argv.filterMap fun x => match x with | .names l => some l | _ => none

/-- The name is to be excluded. -/
def ExcludedBy (stdlib : List Str) (argv : List Arg) (x : Str) : Prop :=
  .exclude x ∈ argv ∨ (.excludeStdlib ∈ argv ∧ x ∈ stdlib)

/-- What the options mean. -/
structure Means (stdlib : List Str) (argv : List Arg) (a : Args) : Prop where
  nodeType : a.nodeType = (nodeTypes argv).getLast?.getD .module
  path : a.path = paths argv
  excludes : ∀ x, x ∈ a.excludes ↔ ExcludedBy stdlib argv x
  output : a.outputFile = (outputs argv).getLast?
  format : a.format = if (formats argv).getLast? = some c!"dot" then .graphviz else .html
  known : ∀ f ∈ formats argv, f = c!"html" ∨ f = c!"dot"
  names : ∃ l, groups argv = [l] ∧ l ≠ [] ∧ a.names = some l

/-- The graph has a root for the name: the module, the script, or the distribution that was found for
the name. -/
def RootFor (env : Env W) (t : NodeType) (name : Str) (s : St W) : Prop :=
  match t with
  | .module => name ∈ s.roots ∧ ∃ m ∈ s.nodes, m.ident = name
  | .script => name ∈ s.roots ∧ ∃ m ∈ s.nodes, m.ident = name ∧ m.kind = .script
  | .distribution => ∃ d w, (env.distributionNamed name w).1 = .ok (some d) ∧ d.identifier ∈ s.roots ∧
      ∃ m ∈ s.nodes, m.ident = d.identifier ∧ m.isBaseNode = false

/-- What there is to see of files: the text written to standard output, the contents of the files, and
for open files their name and what was written to them. -/
structure Files (W : Type) where
  out : W → Str
  file : W → Str → Option Str
  handle : W → Nat → Option (Str × Str)

/-- Writing to files does what it should if it does not raise.  The contents of a file are only known
when it was closed (buffering). -/
structure OutputOk (o : Output W) (f : Files W) : Prop where
  stdout : ∀ t w u w', o.stdout t w = (.ok u, w') → f.out w' = f.out w ++ t ∧ ∀ x, f.file w' x = f.file w x
  openFile : ∀ x w h w', o.openFile x w = (.ok h, w') →
    f.handle w' h = some (x, []) ∧ f.out w' = f.out w ∧ ∀ y, y ≠ x → f.file w' y = f.file w y
  write : ∀ h t w u w' x b, o.write h t w = (.ok u, w') → f.handle w h = some (x, b) →
    f.handle w' h = some (x, b ++ t) ∧ f.out w' = f.out w ∧ ∀ y, y ≠ x → f.file w' y = f.file w y
  close : ∀ h w u w' x b, o.close h w = (.ok u, w') → f.handle w h = some (x, b) →
    f.file w' x = some b ∧ f.out w' = f.out w ∧ ∀ y, y ≠ x → f.file w' y = f.file w y

/-- The document in the wanted format for a graph. -/
def Document (format : OutputFormat) (g : View) (doc : Str) : Prop :=
  match format with
  | .html => ∃ (l : List Node) (text : Node → Str), Listing g l ∧
      (∀ n ∈ l, HtmlSection g n (text n)) ∧
      doc = c!"<HTML>\n  <HEAD>\n   <TITLE>Modulegraph report</TITLE>\n  </HEAD>\n  <BODY>\n   <H1>Modulegraph report</H1>\n"
        ++ l.flatMap text ++ c!"  </BODY>\n</HTML>\n"
  | .graphviz => ∃ (l : List Node) (node : Node → Str) (targets : Node → List Node)
        (edge : Node → Node → Str) (cs : List (Str × List Node)),
      (l.map Node.ident).Nodup ∧ (∀ n, n ∈ l ↔ n ∈ g.nodes ∧ Reach g n.ident) ∧
      (∀ n ∈ l, DotNode g n (node n) ∧ Targets g n.ident (targets n) ∧
        ∀ t ∈ targets n, DotEdge g n t (edge n t)) ∧
      Clusters g cs ∧ doc = c!"digraph modulegraph {\n" ++
        (l.flatMap fun n => node n ++ (targets n).flatMap (edge n)) ++
        (cs.zipIdx.flatMap fun c => clusterText c.2 c.1.1 c.1.2) ++ c!"}\n"

/-- The document is where it was asked for, and nothing else was written. -/
def WrittenTo (f : Files W) (place : Option Str) (doc : Str) (w w' : W) : Prop :=
  match place with
  | none => f.out w' = f.out w ++ doc ∧ ∀ x, f.file w' x = f.file w x
  | some file => f.file w' file = some doc ∧ f.out w' = f.out w ∧ ∀ x, x ≠ file → f.file w' x = f.file w x

end Verif.Spec
