# Formal model of modulegraph2 in Lean 4: design

`properties.jsonl` has the English properties (C01, C02, ...). `MANIFEST.json` maps each to the names
of its theorems. This file says what is modelled, how each property is proved, what the code gets
wrong, and what has to be trusted.

## Layout

* `lean/Verif/Py`: Python values. Strings are lists of characters with the string methods the code
  uses; exceptions are values.
* `lean/Verif/Model`: the code, function by function. Every definition cites file and lines in /repo
  and states its simplifications.
* `lean/Verif/Spec`: small specifications (component lists, paths in trees, reachability, ...) that do
  not use the helpers of the model. `Spec/Demo.lean` has a small concrete import system used by the
  examples.
* `lean/Verif/Proofs`: lemmas.
* `lean/Verif/Props`: the property theorems, one file per area. Beside each theorem an `example`
  shows a concrete case that meets its hypotheses. Where the code violates a property, a theorem
  gives a concrete counterexample, and a theorem with the suffix `_partial` says what is true.

## The model

### The stateful core (`Model/State.lean`, `Model/Graph.lean`)

A `ModuleGraph` is a state `St W`: nodes, edges with their attributes, roots, the table of lazy
nodes, the work stack, the set of nodes seen by post-processing, the hook lists, and the outside
world `W`. A method is a function `M W α = St W → Except Exc α × St W`. An exception does not undo
changes, so every point at which a call can fail is part of the model.

* The interpreter's import system, loaders, `sys.modules` and the file system are an arbitrary
  external machine: a type `W` and functions `W → Except Exc α × W` (record `Env`). Every theorem
  quantifies over it. Restrictions are explicit hypotheses, listed below.
* The methods of `ModuleGraph` call each other recursively. Each is a non-recursive body over a record
  of callees. `calls env n` ties the knot with recursion depth `n`; deeper recursion raises the
  exception `fuel`, which exists only in the model. Theorems hold for all `n`. `calls_le`
  (`Proofs/Fuel.lean`) shows that a larger depth changes no outcome other than `fuel`, and
  `C42_outcome` that in finite environments some depth always suffices.
* Hooks and client programs are arbitrary interaction trees over the public interface (`Hook W`): they
  call methods, look at the graph, catch exceptions, change the outside world, and raise.
* A ghost log records what was scheduled, started, completed and failed. No decision reads it.
  A ghost field has the work items set aside by `_saved_stack`.

### The contract of ObjectGraph

`objectgraph.ObjectGraph` is not in /repo. The model assumes its documented contract:

* `add_node` raises for a known identifier; `add_edge` and `add_root` raise for unknown end points.
* An edge holds a set of attributes. Roots are a set.
* `find_node` returns the node with that identifier.
* `outgoing` yields the successors of a node in some order, possibly a different one at each call
  (`outOrder`; `OrderOk` and `OrderExact` say that it yields only, or exactly, the successors).
* `iter_graph` yields the nodes reachable from the roots, each once, in any order (`IterOf`).

### Pure parts

| file in /repo | model | left out |
|---|---|---|
| `_ast_tools.py`, `_importinfo.py` | `Ast`, `ImportInfo` | Python's parser (a tree is the input); only the fields that the scanner reads |
| `_bytecode_tools.py` | `Bytecode` | `dis` (a list of instructions is the input); cached results |
| `_depinfo.py`, `_nodes.py`, `_implies.py` | `Nodes`, `Implies` | attributes `loader`, `code`, `extension_attributes`; the table for Python 3.6 |
| `_distributions.py` | `Distributions`, `DistIter`, `DistWorld`, with `posixpath` in `Paths` and the header part of `email.parser` in `Metadata` | the decoding of RECORD; bodies of mails in METADATA |
| `_graphbuilder.py` | `NodeForSpec`, `DataFiles`, `DataWorld`, `SixMoves` | the loaders (record `Loaders`); `pathlib`, of which `DataWorld` has the components and the parent of a path |
| `_dotbuilder.py`, `_htmlbuilder.py`, `report()` | `Export` | nothing; the text is modelled character by character |
| `_utilities.py` | `Utilities`, `Main` | `FakePackage` is the world function `setFake` |
| `__main__.py` | `Main` | the lexical part of `argparse` (abbreviations, `-h`, usage messages) |
| `_callback_list.py`, `_modulegraph.py`, `_swig_support.py`, `_mypyc_support.py` | `State`, `Graph`, `Scripts` | Python's own recursion limit; `clear()` of the callback lists (never called) |

Sets whose iteration order Python does not fix are lists in an order chosen by a parameter.

### Assumptions on the outside world used by some theorems

| name | meaning |
|---|---|
| `MakesModules` | `node_for_spec` makes modules, packages or missing modules. Proved of the code in `C36_makes_modules`. |
| `LoadsModules` | as before, and no missing modules (no six.moves or vendored modules) |
| `OnlyAs x` | the module called `x` is not found under another name |
| `Hook.Passive` | a missing hook of the user only looks, changes the world, or raises, and returns `None` |
| `Hook.Only P` | client or hook code uses only operations with property `P` |
| `OrderOk`, `OrderExact` | order of successors, see above |
| `Static` (C29) | the directories and dist-info files on the path do not change |
| `Loaders.Stable` (C36) | asking a loader does not change what loaders say |
| `ShowsTree` (C43) | directory listings do not change during the run |
| `SysPathOk` (C34) | `sys.path` is one list object with Python's slice assignment |
| `FiniteImports`, `Returns`, `KeepsFakes` (C42) | finitely many names; the import system itself returns |
| `Compiled` (C37, C38) | the instruction patterns that CPython's compiler emits for imports, functions and classes |

## Proof techniques

1. *Closure theorem* (`Proofs/Closure.lean`). A pair of relations closed under the primitive state
   updates is respected by every method, hook and client program. One walk over all bodies serves
   many invariants.
2. *Conservation laws*: queued + set aside + started = scheduled, for each work item (`Queue`,
   `Rounds`, `Drain`).
3. *Walk with context* (`Ctx`, `CtxWalk`). Like 1, but an update may depend on which method makes it and
   on postconditions of its callees.
4. *Postconditions by induction on the recursion depth*: `Results`, `Load`, `Completed`, `DepthFirst`,
   `PackageWalk`.
5. *Potential argument* for termination (`Terminates`): a triple `Fin2` carries a bound on the depth
   that decreases with each new node and each work item.
6. *Functional correctness* of the pure parts against an independent specification, by structural or
   well-founded induction.

## Properties

"partial" means that the code violates the property as written; the counterexample and the true part
are both theorems.

| id | status | how proved | where the code falls short |
|---|---|---|---|
| C01-C03 | proved | closure theorem | |
| C04 | partial | conservation law over `seen`, stack and log | a hook registered by a running hook makes the list be walked twice over one hook |
| C05 | partial | conservation law | the node supplied by the SWIG hook is not post-processed |
| C06 | proved | closure with two modes: code that may run the queue and code that may not | |
| C07 | proved | conservation law, postcondition of `_process_import`, link to the scanned imports | |
| C08 | proved | component lists | scripts have a name with dots, so relative imports in scripts are accepted (recorded) |
| C09 | proved | postcondition | |
| C10 | proved | walk with context | |
| C11 | proved | closure | |
| C12 | partial | walk with context | a module found under an excluded name is analysed |
| C13, C14 | proved | postconditions | |
| C15 | partial | walk with context | implied references are skipped for a module found under another name |
| C16, C17 | proved | postconditions | |
| C18 | partial | postcondition | an implies list that names submodules of a missing module raises ValueError |
| C19 | proved | postconditions | after a failure the half-added distribution counts as added (recorded) |
| C20 | proved | chains of calls | a hook that registers a hook is asked twice (recorded) |
| C21 | proved | walk with context | |
| C22 | proved | breadth-first queue equals occurrences up to permutation | |
| C23 | partial | paths in the tree | `try`/`except*` does not count as `try` |
| C24 | partial | entries of statements | one name under two `as` names: one is lost |
| C25 | proved | component lists | |
| C26, C27 | proved | CSV grammar; suffix rules | scripts outside of the site directory get names nobody can import (recorded) |
| C28 | proved | invariant of the cache; a name that was not found is searched for again (`C28_retry`) | |
| C29 | partial | induction over the search path; entries are read up to the answer (`C29_until`), an error of an entry is the answer (`C29_error`) | an unreadable dist-info hides the rest of its directory |
| C30, C31, C33 | proved | reachability and permutations | |
| C32 | partial | as before | links to distribution nodes go nowhere |
| C34 | proved | contract of `sys.path`, including the import caches (`C34_caches`) | |
| C35 | partial | directory trees; invariant on where nodes come from (`Sourced`), for the package nodes of any run | only the first sub-directory is searched |
| C36, C53 | partial, proved | decision table over loaders; for C53 also the nodes of any run | a package whose source has a syntax error gets no `Package` node |
| C37, C38 | partial | code trees and instruction positions | EXTENDED_ARG prefixes; classes that use a closure; equal code objects |
| C39 | proved | walk with context | |
| C40 | proved | postcondition of `_process_namelist`, then conservation | |
| C41 | partial | order of events in the log | aliases, submodules, siblings and cycles lose names |
| C42 | proved | potential argument | |
| C43 | partial | postcondition, then conservation along the package tree | namespace packages and extension modules in the package are skipped |
| C44 | partial | closure over the stack | adding a known distribution leaves queued work |
| C45, C46 | proved | decision logic | |
| C47 | partial | fold over the options | the last of -m, -s, -d wins |
| C48, C49 | proved | closure; postcondition | |
| C50 | partial | postcondition | a namespace package found under another name has no edge |
| C51 | proved | merge sort | |
| C52 | partial | walk with context | `__main__` found under another name is analysed |
| C54 | proved | decision logic of `main`, contract of output files | |
| C55 | partial | postcondition of the loop over the statements | relative imports are taken as absolute names |
| C56 | proved | recursion on the name | a node for an invalid relative import can be made a root (recorded) |
| C57 | proved | walk with context | |
| C58 | proved | scanner (C22-C24), loaders (C36), queue (C07) and from-imports (C40) put together | names that a package assigns itself are not submodules |
| C59 | proved | everything that loading a module adds is reachable from its result (Proofs/Brings.lean); then an invariant over the run (Proofs/Orphans.lean) | orphans are exactly allowed for missing submodules only tried (`C59_orphan`) |
| C60 | proved | a relation between worlds that every use of the outside world respects holds over every run (Proofs/WorldWalk.lean); instances: entries kept, entries equal or new fakes | the dictionary laws (`SysDict`) and `Searches` are hypotheses on the world; `C60_lost` and `C60_swig_lost` show what happens without |
| C61 | proved | a declarative description of the graph (Spec/ExactSpec.lean) is an invariant of every run (Proofs/Exact.lean); what was completed satisfies all its rules (Proofs/ExactDone.lean); that distributions have all their edges is an invariant of its own (Proofs/DistLinks.lean) | with distributions and pieces of source code; conditions `Tame` on the modules: no SWIG. Modules compiled with mypyc are described (`compiled`: with the built-in hooks they have the imports of their source and an edge to their helper module, which is a root; Proofs/MypycDone.lean, example in Props/MypycExact.lean), but with them no module may be passed on by another one. Names that `six.moves` has from other modules are described (`Sent`, with the table of Spec/SixSpec.lean; example in Props/SixExact.lean). A module may be imported from a plain module that only imports it (`passedOn`) if that module does not wait for the importing one (`Behind`, an upper bound for what the queue may look at first; Proofs/Heaps.lean, Proofs/Passed.lean) and has but one module of the name; not from a package |
| C62 | partial | consequence of C61 | without `Tame` the claim is false: `C62_reexport_order`, `C62_behind_order`, `C62_choice_order`, `C62_link_order`, `C62_global_order` |
| C63 | proved | walk over all methods with the invariant of C61: no method ends with an exception (Proofs/NoErr.lean, NoErrRun.lean, NoErrApi.lean); with C42 and C61: total correctness. C63_in_worlds: the same for worlds with an invariant, by comparing the run with one in a guarded world that raises a flag at unexpected calls (Proofs/Sim.lean, Proofs/Guard.lean) | conditions `Tame`, `Safe`, `Works`; modules compiled with mypyc are included: their sources are absent, or can be read and are programs or have a syntax error; counterexamples without them, e.g. `C63_turtledemo`: a real failure with the table of the standard library |
| C64 | partial | from the description of the scan (Proofs/BytecodeTree.lean) | `global` statements in class bodies: `C64_class_global` |
| C65 | partial | the table is compared with a text of its own, entry by entry (Spec/TableSpec.lean, `C65_entries`); the names of the table are enumerated; a closure argument over what a package brings (Props/StdlibTable.lean); then C63 | `turtledemo` and `dbm` have to be installed if they are needed (`C63_turtledemo`) |
| C66 | proved | a project (Spec/ProjectSpec.lean) is turned into a setup of C61, which is shown `Tame` and `Safe` (Proofs/Project*.lean) and to be shown by every world that shows the project (Proofs/ProjectWorld.lean); then C63_in_worlds, and the description of C61 is translated back to syntax trees. With distributions: up to the distribution nodes and their edges the graph is the one for the modules of the distributions (Proofs/Flatten.lean, Proofs/Installed.lean) | with excludes, aliases, virtual nodes, implied modules and star imports; conditions `Clear`: modules passed on by other modules only as in C61 (example: Props/RelayExample.lean), no SWIG or six, no extension modules compiled with mypyc. Packages that extend their `__path__` with pkgutil or pkg_resources: the module comes along and the path is what importing the package gives (Props/ExtendedExample.lean). Relative imports that point outside are described (`Edge.outside`, `Outside`). Modules without source text (frozen, bytecode): `CodeOf` relates the import instructions to statements, Proofs/ProjectCode.lean derives the records of the scanner from C37; a module or package that cannot be compiled has only the imports of its tree, if it can be parsed (Props/FrozenExample.lean, Props/ExtendedExample.lean) |
| C67 | proved | C66 in worlds in which `sys.path` is the `-p` options followed by the old path; if no call fails the loop of the command line does what the client of C66 does; then C47 (arguments), C34 (search path) and C54 (output) | opening, writing and closing the output works |
| C68 | partial | a reader for the DOT language (Spec/DotSpec.lean: a lexer and a parser, written after the grammar and independent of the exporter); the lexer is run over the text of C33 piece by piece, then the parser over the tokens | names with a quote, a newline or a final backslash: `C68_injection`, `C68_unreadable`. The reader rejects the parts of the language it does not know (comments, HTML strings, ports, default attributes, chains) |
| C69 | proved | C67 with C68; what is reached in a project is what is reachable in its graph, by induction | conditions of C67, and plain names (C68). Names that were tried and not found in a package (`Tried`) are in the graph but not in the picture: nothing leads to them |
| C70 | partial | a reader for the part of HTML that is needed (Spec/HtmlSpec.lean: a lexer for tags, attributes and text, and a stack of open elements, in which `p` may be left open), independent of the exporter; it is run over the text of C32 section by section | names with a quote, `<` or `&`: `C70_injection`, `C70_unreadable` (names are not escaped). The reader rejects `&`, comments and end tags in the wrong order |
| C71 | proved | C67 with C70; as for C69 | conditions of C67, and plain names (C70). All links lead to a section (`closed`), which C32 refutes for graphs with distributions |
| C72 | proved | `Search`, `Retry`, `Finds`, `NotThere` (Spec/LocateSpec.lean) describe a search in terms of `find_spec` and `sys.modules`; symbolic execution of `_load_module` in an arbitrary state | C18 uses `NotThere`. Explicit namespace packages (`hns`) need another module: C50 |
| C73 | proved | from C66; `Passes` (Spec/RelaySpec.lean) says in terms of import statements that a module has another module under a name, perhaps by way of further modules | conditions of C66 |
| C74 | proved | `Looks`, `Fares`, `ServedFrom` (Spec/MovedSpec.lean) say in terms of the loader operations what an importer has behind a name, with a second copy of the table of `six.moves`; case analysis of `node_for_spec`, `C74_total` shows that the cases are exhaustive; induction over chains of importers; symbolic execution of `_load_module` for the alias | names of modules as the importers serve them (`Serves`); `C74_alias` is for missing hooks that do not change the graph |
| C75 | proved | `DistPart` makes the state of `_distributions.py` a part of the world of the graph builder (Model/DistWorld.lean); invariant: the dictionary of distributions holds what is on disk (`Remembers`), by induction over the search path (Proofs/Shelf.lean); C26 and C27 for what is in RECORD; then C66; with C67 for the command line (Props/ShelfCommand.lean) | conditions of C66; only `OSError` for what cannot be read; `import_names` and `files`, sets in Python, are lists in the order of RECORD, the description of the graph does not depend on the order |
| C76 | proved | `Path.Means` (Spec/PathSpec.lean) says where the components of a path lead, one step at a time; the loop of `normpath` keeps the shortest path to the place reached so far; `dirname` and `join` by their effect on the components | POSIX; symbolic links are not looked at, neither by `normpath` |
| C77 | proved | `Meta.File` (Spec/MetadataSpec.lean) says which fields any text has; lines, header lines and continuation lines are computed, then induction over the fields; `C77_all`: every text is such a file | bytes from 128 on are characters, which stand for surrogate escapes |
| C78 | partial | C36 for the nodes of any run, C38 for what the scan of the code finds | a class that reads `__file__` or `__import__` in its body: `C78_class_body` |
| C79 | proved | `Hook.Asks` (Spec/RecipeSpec.lean): a hook makes a call, whatever it sees; C05 (every node is post-processed), items of the stack refer to nodes of the graph (Proofs/PostNodes.lean), every registered hook is run for the item and what a call did stays (Proofs/Recipes.lean), then C49, C16 and C43 for the single calls | as in C05; `Asks` is about the calls the hook makes whatever the graph answers |
| C80 | proved | `PictureWith`, `PageWith` (Spec/DistPictureSpec.lean): what readers of DOT and HTML see, in terms of the project and the installed distributions; C67 for `-d` gives the graph, C68 and C70 the documents | as in C67, C69 and C71; links to distributions lead to no section (C32) |
| C81 | proved | `Told` (Spec/ToldSpec.lean): which node makes a module necessary, in terms of statements, configuration, packages and calls, without the queue; a walk through all methods (Proofs/Told.lean) keeps it for every question in the log and for everything that is queued | missing hooks do not use the graph; no lists of import statements by hand |
| C82 | proved | `Careful` (Spec/LookupSpec.lean): programs that pass only nodes they know; a walk through all methods (Proofs/Lookup.lean) keeps that queued items and edges mention nodes of the graph, and that exceptions are allowed ones; the same for `node_for_spec` (Proofs/LoaderRaises.lean) | hooks and clients are careful; `KeyError` of `sys.modules.pop` at 586 is allowed, it is handled; code objects are made by the compiler |
| C83 | partial | `DiskRaises`, `Labelled` (Spec/DiskSpec.lean); walk through the loops over the path and a directory (Props/LookupDisk.lean) | false for METADATA without a name or version (`C83_unlabelled`); exceptions of reading other than `OSError` are passed on |
| C84 | partial | `Model/DistIter.lean` has the generator with any body of the consumer's loop; induction over directory and path (Props/DistIter.lean); `C84_lookups` shows that the searches in `Model/Distributions.lean` are instances | false when a dist-info directory cannot be read (`C84_unreadable_hides`); the path does not change during the loop; `Static` for what is visited, no condition for the objects |
| C85 | partial | `OutputRaises` (Spec/OutputSpec.lean) with the walk of C82 for the calls that `make_graph` makes (Props/CommandRaises.lean) | false for wrong names and for standard output (`C85_unknown_distribution`); conditions of C82 |

## Other observations on the code

Read from the code while modelling it; no property depends on them.

* An exception in a hook for missing modules that is called for a module that is not found ends up in the
  `except Exception` of `_load_module` (609), which takes it for a problem of `find_spec`.
* A module at top level that defines `swig_import_helper` and imports a missing module of the name SWIG
  uses makes the call fail with an `AssertionError`: its package is looked up under the empty name.
* `import_package` also imports `pkg.__init__` as a submodule and treats `__pycache__` as a directory that may
  be a package.
* Imports in the body of a generic class (PEP 695) are marked as in a function by the bytecode scan.
* Nodes of the classes `FrozenModule`, `FrozenPackage` and `InvalidModule` have no shape in the Graphviz output.
* The path of a script is used like a module name: with a dot in it, `from . import x` refers to what is in
  front of the last dot.
* Names of distributions are compared as they are spelled: `foo-bar` does not find `foo_bar`.
* In the HTML page, links to distributions lead to no section (C32, C80).

## Mutation testing

`seeded/LOG.jsonl` has one line per wrong program: the definition edited, the edit, the claim it
breaks, the theorems that failed, and the theorems that were tightened because the first version let
the edit through.

## Trusted base

* Lean's kernel. No axioms besides Lean's own `propext`, `Classical.choice` and `Quot.sound`; no
  `sorry`, no `native_decide`, no `bv_decide`. Mathlib is not imported.
* Axioms per property theorem, from `#print axioms`: see `AXIOMS.md`.
* The reading of /repo recorded in the comments of `Model`. The code was read, not run.
* The contracts named above: ObjectGraph, `sys.path`, `dis`, the compiler's instruction patterns.
* Statements only: `Spec` and the theorem statements in `Props`.
