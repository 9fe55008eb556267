{"id": "C01", "title": "At most one node per identifier", "statement": "At every point of every run of client code against a ModuleGraph (API calls, hooks that call back into the graph, calls that end in an exception), the graph holds at most one node with a given identifier.", "quantifier": "every client program over the public API, every set of hooks, every import environment, every crash point", "why_tests_cant": "Tests look at finished graphs of a handful of fixture packages; duplicate creation needs a particular interleaving of recursion, implies and hooks.", "anchors": ["modulegraph2/_modulegraph.py:ModuleGraph._find_or_load_module", "modulegraph2/_modulegraph.py:ModuleGraph._load_module", "modulegraph2/_modulegraph.py:ModuleGraph._create_missing_module"]}
{"id": "C02", "title": "No dangling edges or roots", "statement": "At every point of every run each edge joins two nodes that are in the graph, and each root is a node of the graph.", "quantifier": "every client program, hooks, environment and crash point", "why_tests_cant": "A dangling edge would only show for a particular order of node creation and edge creation or after a failure half way.", "anchors": ["modulegraph2/_modulegraph.py:ModuleGraph.add_module", "modulegraph2/_modulegraph.py:ModuleGraph._process_namelist"]}
{"id": "C03", "title": "The graph only grows", "statement": "No API call, hook or failure ever removes a node, edge or root, and a node never changes its class: a node found under an identifier before a call is found under that identifier, with the same class, afterwards.", "quantifier": "every pair of earlier and later states of every run", "why_tests_cant": "Quantifies over pairs of states of arbitrary runs.", "anchors": ["modulegraph2/_modulegraph.py:ModuleGraph"]}
{"id": "C04", "title": "Post-processing hooks run at most once per node", "statement": "In any run, however often nodes are re-processed, re-scanned by hooks or re-added, and whether or not calls fail, the post-processing hooks are invoked at most once for each node identifier.", "quantifier": "every history of API calls, hooks and failures", "why_tests_cant": "The guarantee is about all histories, including re-entrant hooks and retries after exceptions.", "anchors": ["modulegraph2/_modulegraph.py:ModuleGraph._process_import_list", "modulegraph2/_modulegraph.py:ModuleGraph.add_post_processing_hook"]}
{"id": "C05", "title": "Every processed node gets its post-processing call", "statement": "Each node for which processing was scheduled either had its post-processing call, or that call is still queued; when an add_* call returns normally with an empty queue, each node the builder created had exactly one post-processing call.", "quantifier": "every history; every node ever created by the builder", "why_tests_cant": "A lost or doubled queue entry depends on the exact interleaving of pushes, inserts and pops.", "anchors": ["modulegraph2/_modulegraph.py:ModuleGraph._process_import_list", "modulegraph2/_modulegraph.py:ModuleGraph._run_stack"]}
{"id": "C06", "title": "Post-processing happens after the node's imports", "statement": "When the post-processing hooks are called for a node, every import statement found in that node up to then has been processed: the corresponding dependency edge is already in the graph (runs in which no exception was raised and whose missing-hooks do not themselves start a top-level add_* call).", "quantifier": "every such run, every node, every import statement", "why_tests_cant": "Depends on the LIFO discipline of the work stack under arbitrary nesting of imports.", "anchors": ["modulegraph2/_modulegraph.py:ModuleGraph._process_import", "modulegraph2/_modulegraph.py:ModuleGraph._process_import_list", "modulegraph2/_modulegraph.py:ModuleGraph._saved_stack"]}
{"id": "C07", "title": "Every import statement ends up as an edge", "statement": "When an add_* call returns normally and nothing was raised, for every module or script whose imports were scanned and every import statement in it there is an edge from that node to the node of the imported module, carrying the is_optional, is_global, in_fromlist=False and 'as' information of that statement.", "quantifier": "every project, module and import statement", "why_tests_cant": "Completeness over arbitrary import graphs including cycles; tests sample fixture packages.", "anchors": ["modulegraph2/_modulegraph.py:ModuleGraph._process_import", "modulegraph2/_modulegraph.py:ModuleGraph._run_stack", "modulegraph2/_depinfo.py:from_importinfo"]}
{"id": "C08", "title": "Relative imports resolve like Python's", "statement": "A relative import with n leading dots in a module resolves against the package obtained by dropping n trailing components of the module's dotted name (n-1 for a package); it is rejected exactly when fewer components than needed are available.", "quantifier": "every dotted name of any depth, every level >= 1, every node class", "why_tests_cant": "Unbounded depth and level.", "anchors": ["modulegraph2/_graphbuilder.py:relative_package", "modulegraph2/_modulegraph.py:ModuleGraph._process_import"]}
{"id": "C09", "title": "Relative imports outside the top-level package are recorded as invalid", "statement": "A relative import that points outside its top-level package yields one InvalidRelativeImport node named by its dots plus module name, an edge to it from the importing module, and nothing else (no names from the name list, no loading).", "quantifier": "every importing module, level and name list", "why_tests_cant": "All levels and name lists.", "anchors": ["modulegraph2/_modulegraph.py:ModuleGraph._process_import", "modulegraph2/_nodes.py:InvalidRelativeImport"]}
{"id": "C10", "title": "Submodules link to their package", "statement": "When an API call returns normally, every node the builder created for a dotted module name has an edge to the node of its containing package (except names that were only tried as from-import attributes and turned out not to exist).", "quantifier": "every graph built without user hooks; every dotted name", "why_tests_cant": "The edge is added after arbitrary recursive loading; only an inductive argument covers all nestings.", "anchors": ["modulegraph2/_modulegraph.py:ModuleGraph._find_or_load_module", "modulegraph2/_modulegraph.py:ModuleGraph._load_module"]}
{"id": "C11", "title": "Excludes win over implies in any order", "statement": "Once a name was passed to add_excludes, no later add_implies call changes that: until a node for the name exists the name stays excluded, whatever sequence of add_excludes/add_implies/add_* calls happens.", "quantifier": "every sequence of API calls", "why_tests_cant": "Ranges over all interleavings of configuration calls and graph building.", "anchors": ["modulegraph2/_modulegraph.py:ModuleGraph.add_excludes", "modulegraph2/_modulegraph.py:ModuleGraph.add_implies", "modulegraph2/_modulegraph.py:ModuleGraph._implied_references"]}
{"id": "C12", "title": "Excluded modules are not analysed", "statement": "If a name is excluded before any node for it exists, then a node of that name that appears later is an ExcludedModule (or a MissingModule when its package is missing): its imports are never scanned.", "quantifier": "every graph construction after the exclusion", "why_tests_cant": "The module can be reached along any import path, alias or implied reference.", "anchors": ["modulegraph2/_modulegraph.py:ModuleGraph.add_excludes", "modulegraph2/_modulegraph.py:ModuleGraph._load_module"]}
{"id": "C13", "title": "Submodules of excluded or missing packages", "statement": "Importing a submodule of an excluded package gives an ExcludedModule node without looking the module up; importing a submodule of a missing package gives a MissingModule (or whatever a missing hook supplies), again without looking it up; in both cases the node is linked to the package.", "quantifier": "every name of any depth below the package", "why_tests_cant": "Unbounded nesting depth.", "anchors": ["modulegraph2/_modulegraph.py:ModuleGraph._find_or_load_module"]}
{"id": "C14", "title": "Alias and virtual modules", "statement": "A name configured as Alias or Virtual becomes an AliasNode or VirtualNode naming its target, the target module is loaded, and there is an edge from the alias to the target.", "quantifier": "every alias/virtual configuration (chains and cycles included) and environment", "why_tests_cant": "Chains and cycles of aliases of any length.", "anchors": ["modulegraph2/_modulegraph.py:ModuleGraph._implied_references"]}
{"id": "C15", "title": "Implied dependencies are added", "statement": "When a module with an implied dependency list is first loaded, there is afterwards an edge from it to each listed module.", "quantifier": "every implies mapping, including mutually recursive entries", "why_tests_cant": "Mutual recursion between entries.", "anchors": ["modulegraph2/_modulegraph.py:ModuleGraph._implied_references"]}
{"id": "C16", "title": "add_module: result, root and idempotence", "statement": "If add_module(name) returns (no hooks replacing nodes) it returns the node whose identifier is name, that node is a root, and calling add_module(name) again when nothing is queued changes neither nodes, edges nor roots.", "quantifier": "every graph state, name and environment", "why_tests_cant": "All prior histories.", "anchors": ["modulegraph2/_modulegraph.py:ModuleGraph.add_module"]}
{"id": "C17", "title": "add_script is all-or-nothing on load failure", "statement": "If a script cannot be read or parsed, or is already in the graph, add_script raises (OSError, SyntaxError, ValueError) and the graph is exactly as before; if it returns, the node is a Script root named by the given path.", "quantifier": "every path, file content and prior graph", "why_tests_cant": "All prior graph states and failure kinds.", "anchors": ["modulegraph2/_modulegraph.py:ModuleGraph.add_script", "modulegraph2/_modulegraph.py:ModuleGraph._load_script"]}
{"id": "C18", "title": "add_module does not fail for modules that do not exist", "statement": "add_module(name) for a well-formed name that cannot be found returns a MissingModule node instead of raising.", "quantifier": "every well-formed dotted name, every prior graph, every implies configuration", "why_tests_cant": "Depends on the interplay with implies and on all prior states.", "anchors": ["modulegraph2/_modulegraph.py:ModuleGraph.add_module", "modulegraph2/_modulegraph.py:ModuleGraph._create_missing_module"]}
{"id": "C19", "title": "add_distribution links every importable name", "statement": "If add_distribution returns for a distribution that was not yet in the graph, the distribution is a root and has an edge to the node of each of its importable names; adding it again returns the node already in the graph and changes nothing; given a name, it adds the distribution found by that name and raises ValueError, leaving the graph as it was, if there is none.", "quantifier": "every distribution and prior graph", "why_tests_cant": "All RECORD contents and prior graphs.", "anchors": ["modulegraph2/_modulegraph.py:ModuleGraph.add_distribution"]}
{"id": "C20", "title": "Hook call order", "statement": "Post-processing hooks are all called, most recently added first; missing hooks are called most recently added first until one returns a value, later ones are not called, and that value is the result.", "quantifier": "every number of hooks and every pattern of results", "why_tests_cant": "Any number of hooks.", "anchors": ["modulegraph2/_callback_list.py:CallbackList", "modulegraph2/_callback_list.py:FirstNotNone"]}
{"id": "C21", "title": "Missing hooks get the first say", "statement": "Before a MissingModule is created for a name that cannot be resolved the missing hooks are asked; if one supplies a node, that node is used and no MissingModule is added.", "quantifier": "every hook set, name and graph", "why_tests_cant": "All hooks.", "anchors": ["modulegraph2/_modulegraph.py:ModuleGraph._create_missing_module"]}
{"id": "C22", "title": "The AST scan reports every import statement exactly once", "statement": "For every syntax tree the scan terminates and reports exactly one record per 'import' alias and one per 'from ... import' statement, at any nesting depth, and nothing else.", "quantifier": "every syntax tree", "why_tests_cant": "Arbitrary depth and width.", "anchors": ["modulegraph2/_ast_tools.py:extract_ast_info"]}
{"id": "C23", "title": "The AST scan classifies the context of imports", "statement": "A record is marked 'in function' iff the statement is nested in a def or async def, 'in conditional' iff nested in an if statement, 'in try/except' iff nested in the body, handlers or else part of a try statement (the finally part does not count); is_optional is the disjunction and is_global the negation of 'in function'.", "quantifier": "every syntax tree and every import in it", "why_tests_cant": "Arbitrary nestings of the constructs.", "anchors": ["modulegraph2/_ast_tools.py:extract_ast_info", "modulegraph2/_importinfo.py:ImportInfo"]}
{"id": "C24", "title": "Import records carry the statement's names", "statement": "The record of a from-import has exactly the imported names except '*' (each once), is a star import iff '*' occurs, and keeps module, level and 'as' names.", "quantifier": "every from list", "why_tests_cant": "All lists of names.", "anchors": ["modulegraph2/_importinfo.py:create_importinfo"]}
{"id": "C25", "title": "Splitting a module name", "statement": "split_package accepts exactly the non-empty names that are not all dots and contain no empty inner component, returns the last component and the package in front of it (None for a top-level name), and the pieces reassemble to the input.", "quantifier": "every string", "why_tests_cant": "All strings.", "anchors": ["modulegraph2/_utilities.py:split_package"]}
{"id": "C26", "title": "File names survive the RECORD file", "statement": "For every file name without line breaks, the RECORD line a CSV writer produces for it is read back as exactly that file name.", "quantifier": "every file name, hash and size field", "why_tests_cant": "All strings with commas, quotes etc.", "anchors": ["modulegraph2/_distributions.py:create_distribution"]}
{"id": "C27", "title": "Importable names of a distribution", "statement": "The importable names of a distribution are exactly the dotted names of the recorded Python, bytecode and extension files outside __pycache__, a package __init__ file standing for its package.", "quantifier": "every RECORD file and list of extension suffixes", "why_tests_cant": "All record contents.", "anchors": ["modulegraph2/_distributions.py:create_distribution"]}
{"id": "C28", "title": "One distribution object per dist-info directory", "statement": "Across any sequence of lookups each dist-info directory is read at most once successfully and all lookups yield the object created then.", "quantifier": "every sequence of lookups and every file system evolution", "why_tests_cant": "Histories of lookups.", "anchors": ["modulegraph2/_distributions.py:all_distributions"]}
{"id": "C29", "title": "Distribution lookup takes the first match on the path", "statement": "distribution_for_file/distribution_named return the first distribution in search-path order that contains the file / has the name, None iff none does; unreadable path entries are skipped.", "quantifier": "every search path and directory contents", "why_tests_cant": "All search paths.", "anchors": ["modulegraph2/_distributions.py:distribution_for_file", "modulegraph2/_distributions.py:distribution_named"]}
{"id": "C30", "title": "ModuleGraph.distributions()", "statement": "distributions() yields, each once, exactly the distributions of the nodes reachable from a root (of all nodes when reachable=False); distribution nodes themselves do not count.", "quantifier": "every graph", "why_tests_cant": "All graphs.", "anchors": ["modulegraph2/_modulegraph.py:ModuleGraph.distributions"]}
{"id": "C31", "title": "report()", "statement": "report() writes the header and then exactly one line per node reachable from a root that is not a distribution, in identifier order.", "quantifier": "every graph", "why_tests_cant": "All graphs.", "anchors": ["modulegraph2/_modulegraph.py:ModuleGraph.report"]}
{"id": "C32", "title": "HTML export", "statement": "The HTML export has exactly one section per reachable non-distribution node in identifier order; each section lists every dependency; every 'depends on' or 'used by' link points to a section of the page.", "quantifier": "every graph", "why_tests_cant": "All graphs.", "anchors": ["modulegraph2/_htmlbuilder.py:export_to_html"]}
{"id": "C33", "title": "Graphviz export", "statement": "The dot export has exactly one node statement per reachable node and one edge statement per dependency of a reachable node; an edge is dashed iff all its import statements are optional; the clusters partition the reachable nodes that belong to a distribution.", "quantifier": "every graph", "why_tests_cant": "All graphs.", "anchors": ["modulegraph2/_dotbuilder.py:export_to_dot", "modulegraph2/__main__.py:group_nodes", "modulegraph2/__main__.py:format_edge"]}
{"id": "C34", "title": "sys.path changes are scoped", "statement": "Whatever the body of a saved_sys_path block does to sys.path, and however it ends, the list has its original contents afterwards and the import caches have been invalidated; while the command line builds a graph the search path is the -p options in order followed by the original path.", "quantifier": "every body, every way to leave it, every list of -p options", "why_tests_cant": "All bodies and exceptions.", "anchors": ["modulegraph2/_utilities.py:saved_sys_path", "modulegraph2/__main__.py:make_graph"]}
{"id": "C35", "title": "has_data_files", "statement": "A package is flagged as having data files iff some file below its directory is neither a Python module nor inside an ignored directory (__pycache__, .hg, .svn).", "quantifier": "every directory tree, every listing order, zipped or not", "why_tests_cant": "All directory trees.", "anchors": ["modulegraph2/_graphbuilder.py:_contains_datafiles"]}
{"id": "C36", "title": "Node class reflects the loader", "statement": "The node created for a found module is of the class its loader calls for (namespace, builtin, extension, frozen, source, bytecode; a Package around it for packages), is an InvalidModule iff the source or code has a syntax error, and its imports are those of the syntax tree when source is available and of the bytecode otherwise.", "quantifier": "every module spec and loader behaviour", "why_tests_cant": "All combinations of loader results.", "anchors": ["modulegraph2/_graphbuilder.py:node_for_spec"]}
{"id": "C37", "title": "The bytecode scan visits all nested code and reports every import", "statement": "For every code object the scan terminates, visits the code object and all nested ones, and reports one import record per import instruction with its module, level and name list; it is marked 'in function' iff its code object is, or is nested in, a function's code.", "quantifier": "every code object tree", "why_tests_cant": "Arbitrary nesting.", "anchors": ["modulegraph2/_bytecode_tools.py:extract_bytecode_info", "modulegraph2/_bytecode_tools.py:_extract_single", "modulegraph2/_bytecode_tools.py:_all_code_objects"]}
{"id": "C38", "title": "The bytecode scan collects the globals", "statement": "globals_written are exactly the names stored at module level, those stored through 'global' in functions and the names from-imported at module level; globals_read are exactly the names loaded at module level or as globals.", "quantifier": "every code object tree", "why_tests_cant": "Arbitrary instruction sequences.", "anchors": ["modulegraph2/_bytecode_tools.py:_extract_single"]}
{"id": "C39", "title": "No invented dependencies", "statement": "Every edge of a graph built without user hooks is explained by an import statement of its source node, a package link, an alias, an implied dependency, an explicit namespace package or a distribution.", "quantifier": "every edge of every graph", "why_tests_cant": "Soundness over all graphs.", "anchors": ["modulegraph2/_modulegraph.py:ModuleGraph._process_import", "modulegraph2/_modulegraph.py:ModuleGraph._process_namelist", "modulegraph2/_modulegraph.py:ModuleGraph._find_or_load_module"]}
{"id": "C40", "title": "from-import of submodules", "statement": "After 'from P import x' has been processed for a package P: if x is an existing submodule not shadowed by a global of P the importer has an in_fromlist edge to P.x; if P re-exports a module as x the importer has an edge to that module; a name of six.moves that is no submodule but is in its table gives an edge to the module of the table; names imported from a plain module never create nodes.", "quantifier": "every package, name list and graph", "why_tests_cant": "All combinations of globals, edges and submodules.", "anchors": ["modulegraph2/_modulegraph.py:ModuleGraph._process_namelist"]}
{"id": "C41", "title": "Star imports propagate globals", "statement": "After 'from M import *' has been processed the names written in M count as written in the importing module; the order of chained star imports is resolved depth first.", "quantifier": "every chain of star imports", "why_tests_cant": "Chains of any length.", "anchors": ["modulegraph2/_modulegraph.py:ModuleGraph._process_namelist"]}
{"id": "C42", "title": "Graph construction terminates", "statement": "If only finitely many module names are involved and no hooks are installed, add_module, add_script and add_distribution terminate.", "quantifier": "every finite import environment, including cyclic imports, aliases and implies", "why_tests_cant": "Termination for all finite environments.", "anchors": ["modulegraph2/_modulegraph.py:ModuleGraph._run_stack", "modulegraph2/_modulegraph.py:ModuleGraph._find_or_load_module"]}
{"id": "C43", "title": "import_package adds all submodules", "statement": "When import_package(importer, name) was called in a hook context and the context ended normally, the importer has an edge to the package, and the package to each module file directly inside it, recursively for sub-packages.", "quantifier": "every package tree", "why_tests_cant": "All trees.", "anchors": ["modulegraph2/_modulegraph.py:ModuleGraph.import_package", "modulegraph2/_modulegraph.py:ModuleGraph._saved_stack"]}
{"id": "C44", "title": "The work queue is drained", "statement": "add_module, add_script, add_distribution and hook_context leave no queued work when they finish normally; work queued before a failing nested import is not lost.", "quantifier": "every history", "why_tests_cant": "All interleavings.", "anchors": ["modulegraph2/_modulegraph.py:ModuleGraph._run_stack", "modulegraph2/_modulegraph.py:ModuleGraph.hook_context", "modulegraph2/_modulegraph.py:ModuleGraph._saved_stack"]}
{"id": "C45", "title": "The SWIG hook only steps in for SWIG modules", "statement": "The built-in missing hook supplies a node exactly when a module or package that defines swig_import_helper imports '_'+its own last name component and that name is found as an extension module in its package; the node then carries the requested global name.", "quantifier": "every importing node, name and environment", "why_tests_cant": "All combinations.", "anchors": ["modulegraph2/_swig_support.py:swig_missing_hook"]}
{"id": "C46", "title": "The mypyc hook", "statement": "For an extension module (or package with an extension __init__) of an installed distribution with a '*__mypyc' helper, whose Python source lies next to it, the graph gets an edge to the helper and the imports of that source; for every other node the hook does nothing.", "quantifier": "every node and environment", "why_tests_cant": "All combinations.", "anchors": ["modulegraph2/_mypyc_support.py:mypyc_post_processing_hook"]}
{"id": "C47", "title": "Command line semantics", "statement": "The command line adds every named module, script or distribution as a root, with all -x names and, if requested, the standard library excluded, independent of the order of the options.", "quantifier": "every argument list", "why_tests_cant": "All argument lists.", "anchors": ["modulegraph2/__main__.py:make_graph", "modulegraph2/__main__.py:ExtendConstAction"]}
{"id": "C48", "title": "Failures leave a usable graph", "statement": "After a call that ended in an exception all structural guarantees (unique identifiers, no dangling edges, hooks at most once, queued work kept) still hold and later calls work on the remaining queue.", "quantifier": "every failure point", "why_tests_cant": "All crash points.", "anchors": ["modulegraph2/_modulegraph.py:ModuleGraph._run_stack"]}
{"id": "C49", "title": "import_module links the importer", "statement": "When import_module(importing, name) returns, it returns the node called name, there is an edge with default attributes from the importing node to it, no root was added, and everything that was waiting in the work queue is still waiting.", "quantifier": "every graph, importing node and module name", "why_tests_cant": "All graphs and import environments; the module may be found in many ways.", "anchors": ["modulegraph2/_modulegraph.py:ModuleGraph.import_module"]}
{"id": "C50", "title": "Explicit namespace packages are linked to their implementation", "statement": "If no call failed, every explicit namespace package in the graph has an edge to the node of the module that implements it (pkgutil or pkg_resources).", "quantifier": "every project", "why_tests_cant": "Packages can be reached along any import path.", "anchors": ["modulegraph2/_modulegraph.py:ModuleGraph._load_module"]}
{"id": "C51", "title": "stdlib_module_names is sorted", "statement": "stdlib_module_names() contains the names of sys.stdlib_module_names, each once per occurrence there, in ascending order of code points.", "quantifier": "every set of names, in any iteration order", "why_tests_cant": "The iteration order of a set of strings changes from process to process.", "anchors": ["modulegraph2/_utilities.py:stdlib_module_names"]}
{"id": "C52", "title": "__main__ is never analysed", "statement": "Whatever is configured and added, a node for the module name __main__ is an ExcludedModule and its imports are never scanned.", "quantifier": "every sequence of API calls, every project", "why_tests_cant": "Configuration and import order are arbitrary.", "anchors": ["modulegraph2/_modulegraph.py:ModuleGraph.__init__", "modulegraph2/_modulegraph.py:ModuleGraph.add_implies"]}
{"id": "C53", "title": "Attributes of package nodes", "statement": "The file name, distribution, search path, has_data_files flag and namespace type of a package or module node are those of its spec: the file of the __init__ (none for built-in and frozen modules) and its directory, the distribution of that file, data files iff the directory contains some, namespace type iff the source uses __import__ and mentions pkg_resources (which wins) or pkgutil, and for such packages the search path found by importing them, if that is possible.", "quantifier": "every module spec and loader behaviour", "why_tests_cant": "All combinations of loader results.", "anchors": ["modulegraph2/_graphbuilder.py:node_for_spec"]}
{"id": "C54", "title": "The command line writes what was asked for", "statement": "When the program ends normally the graph asked for was built and exactly its document in the chosen format was written to the chosen place (standard output or the last -o file), nothing else. Usage errors end with status 2 and an output file that cannot be written with status 1; when the graph cannot be built the exception is passed on and an existing output file is left alone.", "quantifier": "every argument list, graph, iteration order and file system", "why_tests_cant": "All argument lists and all failures of the file system.", "anchors": ["modulegraph2/__main__.py:main", "modulegraph2/__main__.py:format_graph", "modulegraph2/__main__.py:print_graph"]}
{"id": "C55", "title": "Dependencies of a piece of source code become roots", "statement": "add_dependencies_for_source(code): when it returns, for every import statement anywhere in the code (any nesting depth) the imported module, and for every name in a from-import the name 'module.name', is a node and a root of the graph. If the code does not parse the exception is passed on and the graph is unchanged.", "quantifier": "all source trees, environments, prior graph states", "why_tests_cant": "Tests use a few fixed snippets; the claim is about every statement in every tree and every prior state", "anchors": ["modulegraph2/_modulegraph.py:188-208", "modulegraph2/_ast_tools.py:1-75"]}
{"id": "C56", "title": "Names that are no module names are rejected", "statement": "add_module and import_module with a name that is empty or all dots, has two consecutive dots or starts with a dot raise ValueError, and nothing in the graph, its roots or the work list changes.", "quantifier": "all names, graph states without a node for an invalid relative import, environments", "why_tests_cant": "The set of bad names is infinite and the rejection happens at different recursion depths depending on the number of dots", "anchors": ["modulegraph2/_modulegraph.py:171-186", "modulegraph2/_modulegraph.py:267-288", "modulegraph2/_utilities.py:27-47"]}
{"id": "C57", "title": "Roots are what was asked for", "statement": "Every root of the graph was asked for by an operation of the client or of its post-processing hooks: a module by add_module, a script by add_script, a node by add_root, a distribution by add_distribution, an imported name by add_dependencies_for_source. Imports never make a module a root; the only exception is the built-in mypyc hook, which makes modules whose name ends in __mypyc roots.", "quantifier": "all environments, client programs, post-processing hooks, also when operations fail", "why_tests_cant": "Tests look at the roots after one call; the claim covers all sequences of operations including ones that raise, with re-entrant hooks", "anchors": ["modulegraph2/_modulegraph.py:130-262", "modulegraph2/_mypyc_support.py:29-110"]}
{"id": "C58", "title": "From source text to edges", "statement": "When all work is done without a failed call, every import statement at any nesting depth in the parsed source of a source module, package or script in the graph is an edge from it to the module the statement means (relative statements resolved against the package; statements pointing outside of it to a node for an invalid relative import), labelled with whether it is optional or global and with its as-name. For a from-import without star from another package, every listed name that is not a global variable of the package is a submodule node with such an edge, too.", "quantifier": "all source trees, loaders whose answers do not depend on being asked, file contents, client programs that describe what to add, post-processing hooks of that kind, passive missing hooks", "why_tests_cant": "Tests check a few statements in a few files; the claim is the composition of parser scan, node creation, work list and edge creation for arbitrary trees and programs", "anchors": ["modulegraph2/_ast_tools.py:1-75", "modulegraph2/_graphbuilder.py:160-511", "modulegraph2/_modulegraph.py:680-724", "modulegraph2/_modulegraph.py:833-1010"]}
{"id": "C59", "title": "No unreachable nodes but submodules that were only tried", "statement": "After a run without a failed call every node of the graph can be reached from a root along edges, or from a MissingModule node for p.x where some processed statement says 'from p import x' and the package p has a global variable x of its own or is six.moves. If there are no such missing modules, every module of the graph is in the report.", "quantifier": "all worlds, client programs and post-processing hooks that do not use add_node, import_module, import_package or _process_import_list, passive missing hooks, import records whose from-names have no dots", "why_tests_cant": "Tests look at single small graphs for particular edges; that no code path (aliases, virtual modules, implied references, vendored and six modules, missing packages, mypyc helpers, distributions) leaves a node unlinked is a statement about all runs", "anchors": ["modulegraph2/_modulegraph.py:145-243", "modulegraph2/_modulegraph.py:483-543", "modulegraph2/_modulegraph.py:545-679", "modulegraph2/_modulegraph.py:775-1038"]}
{"id": "C60", "title": "Building a graph keeps the entries of sys.modules", "statement": "Whatever a client does with a graph, and whether or not calls fail, every entry that sys.modules had before is still there afterwards with the same object, provided find_spec(x) does not import x itself and packages in sys.modules can be searched. If searching and reading do not change sys.modules, the only additions are FakePackage entries for modules that can be located. Outside of these conditions entries can get lost: the assertion before the original entry is put back, and the del in the SWIG hook.", "quantifier": "all worlds, all client programs and hooks that do not change the outside world themselves, all operations of the interface, runs with and without exceptions", "why_tests_cant": "The work-around for odd entries in sys.modules is exercised by one test with one entry; that no path (second search raising, SWIG hook, FakePackage of an unimportable package, errors) loses an entry of the running program is a statement about all runs", "anchors": ["modulegraph2/_modulegraph.py:576-602", "modulegraph2/_modulegraph.py:609-642", "modulegraph2/_swig_support.py:31-112"]}
{"id": "C61", "title": "The graph is exactly what the modules and the configuration require", "statement": "For client code that configures excludes and implied modules and then adds modules, scripts, distributions and the dependencies of pieces of source code, without a failed call, the nodes, edges and roots of the graph are exactly those of a declarative description: nodes for all needed names of the kind that configuration, package and file system determine, and edges with their DependencyInfo for import statements, packages, aliases, implied modules, explicit namespace packages and from-imported names, names that six.moves has from other modules, modules compiled with mypyc with the imports of their source and their helper module, and from distributions to their modules. Even with failed calls the graph has nothing else.", "quantifier": "all fixed sets of modules, scripts, distributions and pieces of source code, all excludes and implied modules, all lists of what to add, all orders that sets and dictionaries may have; modules that are imported from other modules that only import them included, if those are plain modules that do not wait for the importing one and have one module of the name (and no module is compiled with mypyc); no SWIG", "why_tests_cant": "Tests compare single small graphs with lists written by hand; that no combination of aliases, missing and excluded packages, from imports, cycles and work queue order gives a missing or extra node or edge is a statement about all programs", "anchors": ["modulegraph2/_modulegraph.py:145-243", "modulegraph2/_modulegraph.py:483-543", "modulegraph2/_modulegraph.py:545-679", "modulegraph2/_modulegraph.py:681-773", "modulegraph2/_modulegraph.py:775-1038"]}
{"id": "C62", "title": "The graph does not depend on the order in which modules are added", "statement": "Adding the same modules, scripts, distributions and pieces of source code in another order gives the same nodes, edges and roots.", "quantifier": "all fixed sets of modules and scripts, all orders of adding them", "why_tests_cant": "There are factorially many orders, and no test of the project uses more than one", "anchors": ["modulegraph2/_modulegraph.py:145-243", "modulegraph2/_modulegraph.py:904-1038"]}
{"id": "C63", "title": "Building a graph works: no call fails, and the result is right", "statement": "If the needed modules, scripts, distributions and pieces of source code can be found and read, then add_module, add_script, add_distribution and add_dependencies_for_source return normally; in a finite environment a list of such calls comes to an end with no failure and with exactly the described graph (total correctness).", "quantifier": "all fixed sets of modules, scripts, distributions and pieces of source code, all excludes and implied modules, all lists of what to add (no script twice); module names have no empty parts, and loading a missing or excluded package does not bring one of its own submodules by implied modules; the sources of modules compiled with mypyc are absent or can be read", "why_tests_cant": "Internal assertions, add_node for a name that exists and find_node on the wrong kind of node raise only for special combinations of aliases, missing packages, implied modules and queue order; a test that passes says nothing about the other combinations", "anchors": ["modulegraph2/_modulegraph.py:145-243", "modulegraph2/_modulegraph.py:483-679", "modulegraph2/_modulegraph.py:681-773", "modulegraph2/_modulegraph.py:775-1038", "modulegraph2/_implies.py:45-118"]}
{"id": "C64", "title": "The bytecode scan finds every global variable of the module", "statement": "Every name that some code of the module stores as a global variable (at module level, or through a 'global' statement anywhere) is in globals_written.", "quantifier": "every code object tree", "why_tests_cant": "Arbitrary nesting and instruction sequences.", "anchors": ["modulegraph2/_bytecode_tools.py:_extract_single"]}
{"id": "C65", "title": "The built-in table of implied modules does not make calls fail", "statement": "With only the built-in table (STDLIB_IMPLIES, with the additions for Windows) and excludes configured, add_module and add_script do not fail when searching and reading modules works: no package of the table brings, by implied modules, one of its own submodules while it is missing or excluded.", "quantifier": "all sets of modules found under their own names (conditions Tame), all excludes, all values of os.path and the sysconfig data module without dots, both platforms, all lists of modules and scripts", "why_tests_cant": "The failure needs a package of the table that is not installed, in combination with an import of one of its submodules; usual installations are complete", "anchors": ["modulegraph2/_implies.py:45-161", "modulegraph2/_modulegraph.py:483-679"]}
{"id": "C66", "title": "From the sources of a project to its graph", "statement": "Given modules and scripts with their syntax trees, installed distributions and pieces of source code: configuring excludes, aliases and implied modules and adding modules, scripts, distributions and what pieces of source code ask for (in any order) comes to an end without failures, and the graph has exactly the nodes and edges that the import statements in the trees, the packages of modules, the distributions, packages that extend their path and what is configured call for (with a node for each relative name that points outside); the roots are what was added.", "quantifier": "all projects (finitely many modules: source files, packages, namespace packages, extension and builtin modules, frozen modules and packages, modules and packages of which there is only bytecode, modules and packages that cannot be compiled, packages that extend their path with pkgutil or pkg_resources), all syntax trees, all excludes, aliases and implied modules, all outside worlds that show the project as long as a property I holds which looking at the project keeps, all orders of adding; conditions Clear: modules are passed on by plain modules only, which do not wait for the importing one, no SWIG or mypyc; conditions Fits: distributions are not called like modules or scripts", "why_tests_cant": "The scan of trees, node_for_spec, the search for modules, implied modules, missing modules and the queue work together; a test covers one project and one order", "anchors": ["modulegraph2/_ast_tools.py:14-75", "modulegraph2/_graphbuilder.py:160-510", "modulegraph2/_modulegraph.py:145-243", "modulegraph2/_modulegraph.py:483-1038"]}
{"id": "C67", "title": "The command line on a project, from arguments to the output file", "statement": "Called with modules (-m), scripts (-s) or names of installed distributions (-d) of a project, the program ends normally and has written, in the wanted format and to the wanted place and nowhere else, a document for a graph with exactly the nodes, edges and roots that the import statements of the project, its packages and distributions, the excluded names and the table of implied modules call for; sys.path is restored.", "quantifier": "all argument lists with -m, -s or -d, all projects, all tables of implied modules, all search paths, all outside worlds in which the project is found while sys.path is the -p options followed by the old path, all output places that can be written to", "why_tests_cant": "A test runs one command on one project; the claim links parsing of arguments, the search path, scanning, the graph builder and both exporters for all of them", "anchors": ["modulegraph2/__main__.py:149-342", "modulegraph2/_modulegraph.py:145-1038", "modulegraph2/_htmlbuilder.py:1-81", "modulegraph2/_dotbuilder.py:1-75"]}
{"id": "C68", "title": "The Graphviz export can be read back", "statement": "The file written by the Graphviz export is a well-formed DOT file, and a reader of the DOT language finds in it exactly the reachable part of the graph: the nodes with root marks, shapes and colours, one edge per connected pair (dashed iff all imports are optional), and one cluster per distribution. This fails for names with a quote, a newline or a backslash at the end, because names are not escaped.", "quantifier": "every graph and order of iteration; every file written by the command line with -f dot", "why_tests_cant": "All graphs and all names; a fixed sample has only harmless names.", "anchors": ["modulegraph2/_dotbuilder.py:export_to_dot", "modulegraph2/_dotbuilder.py:format_attributes", "modulegraph2/__main__.py:format_node", "modulegraph2/__main__.py:format_edge", "modulegraph2/__main__.py:group_nodes"]}
{"id": "C69", "title": "The picture of a project", "statement": "Called with -f dot for modules or scripts of a project, the program writes a file that a reader of the DOT language understands, and that shows exactly the project: its nodes are the scripts, the modules reached by imports from the syntax trees and relative names that point outside, marked if asked for or missing, its edges are the imports, dashed iff all imports of that module are optional, its clusters are the distributions.", "quantifier": "every clear finite project, every list of arguments with -f dot, every world that shows the project, every order of iteration", "why_tests_cant": "All projects and argument lists.", "anchors": ["modulegraph2/__main__.py:main", "modulegraph2/_dotbuilder.py:export_to_dot", "modulegraph2/_modulegraph.py:ModuleGraph"]}
{"id": "C70", "title": "The HTML export can be read back", "statement": "The page written by the HTML export is well-formed, and a reader of HTML finds in it exactly the reachable part of the graph: one section per module or script in the order of the names, with the class and the name as heading, links to all it depends on and links to all reachable nodes that depend on it, each once. This fails for names with a quote, < or &, because names are not escaped.", "quantifier": "every graph and order of iteration; every file written by the command line without -f dot", "why_tests_cant": "All graphs and all names; a fixed sample has only harmless names.", "anchors": ["modulegraph2/_htmlbuilder.py:export_to_html", "modulegraph2/__main__.py:main"]}
{"id": "C71", "title": "The page for a project", "statement": "Called without -f dot for modules or scripts of a project, the program writes a page that a reader of HTML understands, and that describes exactly the project: a section for each script, each module reached by imports from the syntax trees and each relative name that points outside, whose heading tells what kind of module it is (or that it is missing, excluded or an alias), whose links are the imports in both directions, and all links lead to a section of the page.", "quantifier": "every clear finite project, every list of arguments without -f dot, every world that shows the project, every order of iteration", "why_tests_cant": "All projects and argument lists.", "anchors": ["modulegraph2/__main__.py:main", "modulegraph2/_htmlbuilder.py:export_to_html", "modulegraph2/_modulegraph.py:ModuleGraph"]}
{"id": "C72", "title": "Modules are found although their package cannot be imported", "statement": "When find_spec raises because the package of a module cannot be imported, the package is located, an object with its __path__ takes its place, and the search is repeated: a module found then (or at once, or after taking an odd entry out of sys.modules and putting it back) gets the node of its specification and its imports are queued; one that is not found, or whose package is no package, is treated as missing. Other exceptions of a search are raised, but not as they are: for a top-level module as the exception for an empty name, for a module in an imported package as AssertionError.", "quantifier": "every environment, graph state, importing module and name", "why_tests_cant": "Ways for an import system to fail, with all their combinations.", "anchors": ["modulegraph2/_modulegraph.py:ModuleGraph._load_module", "modulegraph2/_modulegraph.py:FakePackage"]}
{"id": "C73", "title": "A module imported from a module that only imports it", "statement": "After 'from u import nm', where the plain module u has the module b under the name nm by 'import b', 'import b as nm' or a from import of its own, the graph has an edge from the importing module or script to b, marked in_fromlist and with the alias of the statement. Conversely every edge marked in_fromlist leads to a submodule of a package named in a from import, or to a module to which the module that is imported from has an edge under that name.", "quantifier": "all projects, worlds and orders of C66; chains of any length", "why_tests_cant": "The tests have one re-export of one module; whether chains, aliases and the order of the work queue lose or add such edges is a statement about all projects", "anchors": ["modulegraph2/_modulegraph.py:943-1038", "modulegraph2/_depinfo.py:34-53"]}
{"id": "C74", "title": "Modules that importers serve from elsewhere", "statement": "For the importers of six.moves, of setuptools.extern and pkg_resources.extern, and for the distutils of setuptools, node_for_spec gives the node of the module that is behind the name: the entry of the table for six.moves, the vendored module or else the one outside when the vendored package is not there, and setuptools._distutils. A stale entry in sys.modules that leads back to the module itself is removed before a second search. When nothing is behind the name the node is a MissingModule, also for every name below six.moves that is not in the table. In the graph the name is an AliasNode with an edge to the module behind it, which is added with its imports and its package unless it is there.", "quantifier": "all loaders, worlds, specs and chains of such importers; any state of the graph", "why_tests_cant": "The tests use the versions of six and setuptools that are installed, with one state of sys.modules; chains, stale entries and failures cannot be produced there", "anchors": ["modulegraph2/_graphbuilder.py:36-100", "modulegraph2/_graphbuilder.py:328-446", "modulegraph2/_modulegraph.py:644-668"]}
{"id": "C75", "title": "From the RECORD files of installed distributions to the graph", "statement": "add_distribution(name) uses the distribution of the first dist-info directory on sys.path whose METADATA has the name; in a directory, those behind one that cannot be read do not count. Its node is a root of the graph, and its edges go exactly to the names that the files in its RECORD are imported by; each of these has a node. The node of a module from a file has the distribution whose RECORD is the first with that file, and none if there is no such RECORD. This does not depend on what was looked up before. The same holds for the graph whose document the command line with -d and names of distributions writes, where the directories of -p come first on sys.path.", "quantifier": "all installed distributions with RECORD files in CSV format, all projects that meet the conditions of C66, all sequences of calls of add_module, add_script, add_distribution and add_dependencies_for_source, all command lines with -d", "why_tests_cant": "Tests use one installed distribution and one call at a time; the dictionary of distributions that were read before, unreadable directories and shadowing on the path need states of the disk that the tests do not set up", "anchors": ["modulegraph2/_distributions.py:63-201", "modulegraph2/_modulegraph.py:210-243", "modulegraph2/_graphbuilder.py:205-215", "modulegraph2/_graphbuilder.py:236-246", "modulegraph2/_graphbuilder.py:300-310", "modulegraph2/__main__.py:253-283"]}
{"id": "C76", "title": "Paths of recorded files", "statement": "The files of a distribution are exactly the paths in its RECORD, taken as seen from the directory that contains the dist-info directory (or as they are, if absolute), each in the shortest form of the path: without empty components, '.' and '..' that can be resolved. Two paths get the same form exactly when they lead to the same place in a tree of directories without symbolic links. For a directory given by its shortest path and a recorded path without '.' and '..' this is the directory, a slash and the recorded path, which is what finders report.", "quantifier": "all directories, absolute or relative, with any number of slashes at the end, all recorded paths, all RECORD files in CSV format", "why_tests_cant": "Tests look at installed wheels in one site directory, with absolute path and plain relative names", "anchors": ["modulegraph2/_distributions.py:76", "modulegraph2/_distributions.py:97-104", "modulegraph2/_distributions.py:49-60"]}
{"id": "C77", "title": "Name and version of a distribution", "statement": "The name and version of a distribution are the values of the first Name and Version fields (in upper or lower case) in the header of its METADATA, for any line ends, continuation lines, order of fields and description; text after the header does not matter. Lines that begin with 'From ' or with a colon, and the lines that begin with a blank after them, are skipped. If a field is missing, or its value is not ASCII, create_distribution fails with an AssertionError and RECORD is not read.", "quantifier": "all texts of METADATA", "why_tests_cant": "Tests use METADATA files of a few real distributions, all with the same layout", "anchors": ["modulegraph2/_distributions.py:78-84"]}
{"id": "C78", "title": "Modules that use __import__ or __file__ say so", "statement": "The node of a module with Python code says uses_dunder_import (uses_dunder_file) iff some part of its code - the top level, a function or a class - reads the variable __import__ (__file__). Modules without Python code say neither.", "quantifier": "all import systems, loaders, code objects and runs of all clients", "why_tests_cant": "The answer depends on the code objects of the module and their nesting; tests try a few modules.", "anchors": ["modulegraph2/_nodes.py:115-129", "modulegraph2/_bytecode_tools.py:96-241", "modulegraph2/_graphbuilder.py:262-330"]}
{"id": "C79", "title": "What post-processing hooks ask for is done for every node", "statement": "A client registers post-processing hooks and then uses the graph; no call failed and the work stack is empty. For every node of the graph and every one of these hooks: when the hook, given the node, asks for import_module(a, x), there is an edge from a to a node x; when it asks for add_module(x), x is a root; when it asks for import_package(a, p), the package and the modules and directories of its tree are nodes with edges from the package above them.", "quantifier": "all import systems, hooks, client programs and runs; nodes that were added before the hooks asked and nodes they pulled in", "why_tests_cant": "Whether a hook is called for a node, and whether what it adds survives, depends on the order in which work is queued and on what other hooks do; tests use one hook and a few modules.", "anchors": ["modulegraph2/_modulegraph.py:353-366", "modulegraph2/_modulegraph.py:152-352", "modulegraph2/_modulegraph.py:735-744", "modulegraph2/_callback_list.py:22-67"]}
{"id": "C80", "title": "The picture of and the page for installed distributions", "statement": "Called with -d for installed distributions, the program writes a file that a reader of the DOT language (with -f dot) or of HTML understands. The picture shows exactly the distributions, their modules and what these import: the roots are the distributions, edges lead from each distribution to its modules and are otherwise the imports. The page has a section for each module and each relative name that points outside, with the imports in both directions and, under 'Used by', the distributions a module comes with; the only links that lead to no section are those to distributions.", "quantifier": "every clear finite project, every list of arguments with -d, every world that shows the project, every order of iteration", "why_tests_cant": "All projects and argument lists.", "anchors": ["modulegraph2/__main__.py:main", "modulegraph2/_dotbuilder.py:export_to_dot", "modulegraph2/_htmlbuilder.py:export_to_html", "modulegraph2/_modulegraph.py:210-243"]}
{"id": "C81", "title": "Missing hooks are told who imports", "statement": "Whenever a hook for missing modules is asked about a module, the node it is given makes that module necessary: the module whose import statement (or name in a from list, also through six.moves) refers to it, the module that implies it, the alias or virtual module that stands for it, the package whose file it is (import_package), or the node passed to import_module; or, for a package, the node that makes a module of the package necessary. The hook is given None only when no node does: the client asked for the module or package, it belongs to a distribution that is added, it is a directory of a package that is imported as a whole, the helper of code compiled with mypyc, the package of a module found under another name, or the implementation of an explicit namespace package. Without calls of import_module the node is always in the graph.", "quantifier": "every client program and every post-processing hook over a set of operations without lists of import statements by hand, every missing hook that does not use the graph, every environment, table, and recursion depth", "why_tests_cant": "All programs of clients and hooks, all environments.", "anchors": ["modulegraph2/_modulegraph.py:182", "modulegraph2/_modulegraph.py:239", "modulegraph2/_modulegraph.py:284", "modulegraph2/_modulegraph.py:313", "modulegraph2/_modulegraph.py:383-407", "modulegraph2/_modulegraph.py:519-537", "modulegraph2/_modulegraph.py:605-641", "modulegraph2/_modulegraph.py:806-822", "modulegraph2/_modulegraph.py:908", "modulegraph2/_modulegraph.py:999", "modulegraph2/_callback_list.py:102-121"]}
{"id": "C82", "title": "The graph is never asked about nodes it does not have", "statement": "Every exception that comes out of a method of ModuleGraph was raised by the import system, the file system or the user's code, or is an AssertionError or ValueError (TypeError for add_excludes with a string). In particular no method ends with the KeyError with which ObjectGraph refuses an edge or root for an unknown node, or with an IndexError, as long as hooks and clients pass only nodes of the graph and the world raises no such exception. node_for_spec raises only what loaders raise, AssertionError, or RuntimeError for a loader it does not know; scanning compiled code raises nothing.", "quantifier": "every client program and hook that passes to the graph only nodes it was given, got from a call or saw in the graph (hooks may change the graph in any such way, and pass on exceptions), every environment whose exceptions lie in a given set, every table, recursion depth, spec and loader", "why_tests_cant": "All programs of clients and hooks, all environments and combinations of exceptions.", "anchors": ["modulegraph2/_modulegraph.py:145-351", "modulegraph2/_modulegraph.py:383-407", "modulegraph2/_modulegraph.py:473-679", "modulegraph2/_modulegraph.py:775-1038", "modulegraph2/_swig_support.py:31-112", "modulegraph2/_mypyc_support.py:29-110", "modulegraph2/_graphbuilder.py:160-511", "modulegraph2/_bytecode_tools.py:48-200"]}
{"id": "C83", "title": "A badly installed distribution does not make calls fail", "statement": "Looking for a distribution, by name or by file, never fails because of what is or is not in a dist-info directory on the search path: directories, METADATA and RECORD files that cannot be read, or METADATA without a name or a version, are passed over. In particular adding a module does not fail because an unrelated distribution is installed badly.", "quantifier": "for all disks that may change at any time, all search paths, all names and files, all states of the cache", "why_tests_cant": "Tests run with healthy installations; the failure needs a damaged METADATA file of an unrelated distribution, and the claim is about any damage and any time at which it appears.", "anchors": ["modulegraph2/_distributions.py:63-125", "modulegraph2/_distributions.py:131-201", "modulegraph2/_graphbuilder.py:200-360"]}
{"id": "C84", "title": "all_distributions yields everything that is installed", "statement": "A loop over all_distributions(path) sees every distribution in the directories of the path, in the order of the path and of the listing, even when the body of the loop looks up distributions itself. The objects it sees are the ones that every later lookup uses, whatever happens to the disk. The lookups by name and by file are such loops, left at the first match.", "quantifier": "for all file systems, paths, earlier lookups, consumers that leave the loop or not and that make any lookups in its body; the part on objects for all changes of the disk at any time", "why_tests_cant": "Generators suspended in the middle of a loop while their consumer changes the shared cache, for all interleavings and file systems.", "anchors": ["modulegraph2/_distributions.py:128-201"]}
{"id": "C85", "title": "The command ends with a message, not with a traceback", "statement": "Problems that the user can solve, such as a wrong name on the command line or an output that cannot be written, are reported as messages with an exit status. An exception leaves the command only if the import system, the file system or a loader raised it and it is not an OSError of the output, or if an assertion of the library fails.", "quantifier": "for all argument lists, environments, loaders and outputs that raise any exceptions at any time", "why_tests_cant": "All combinations of arguments and of exceptions of the environment.", "anchors": ["modulegraph2/__main__.py:253-342"]}
