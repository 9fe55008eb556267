{
 "claims": [
  {
   "property": "C01",
   "status": "proved",
   "theorems": [
    "Verif.Props.C01_unique_ids",
    "Verif.Props.C01_unique_ids_op"
   ],
   "note": "all client programs, hooks, environments, failure points"
  },
  {
   "property": "C02",
   "status": "proved",
   "theorems": [
    "Verif.Props.C02_no_dangling"
   ],
   "note": "all client programs, hooks, environments, failure points"
  },
  {
   "property": "C03",
   "status": "proved",
   "theorems": [
    "Verif.Props.C03_grows_op",
    "Verif.Props.C03_grows_run"
   ],
   "note": ""
  },
  {
   "property": "C04",
   "status": "partial",
   "theorems": [
    "Verif.Props.C04_one_round",
    "Verif.Props.C04_hooks_once_partial",
    "Verif.Props.C04_hook_called_twice"
   ],
   "note": "one round per node in all runs; each hook at most once only if hooks do not register hooks while running (counterexample given)"
  },
  {
   "property": "C05",
   "status": "partial",
   "theorems": [
    "Verif.Props.C05_called_or_queued",
    "Verif.Props.C05_only_scheduled",
    "Verif.Props.C05_exactly_once",
    "Verif.Props.C05_every_node_partial",
    "Verif.Props.C05_swig_not_processed"
   ],
   "note": "every base node the builder makes is post-processed exactly once, except the node supplied by the SWIG hook (counterexample given)"
  },
  {
   "property": "C06",
   "status": "proved",
   "theorems": [
    "Verif.Props.C06_imports_first"
   ],
   "note": ""
  },
  {
   "property": "C07",
   "status": "proved",
   "theorems": [
    "Verif.Props.C07_completed",
    "Verif.Props.C07_every_import_has_edge",
    "Verif.Props.C07_target",
    "Verif.Props.C07_scanned_module",
    "Verif.Props.C07_scanned_script"
   ],
   "note": "edge exists in all runs; target identity for runs whose client and hooks do not build parts of the graph by hand; C07_scanned_*: the imports that were scanned are those that the loader reported for the module (or the script)"
  },
  {
   "property": "C08",
   "status": "proved",
   "theorems": [
    "Verif.Props.C08_relative_package",
    "Verif.Props.C08_components_exist",
    "Verif.Props.C08_one_dot_module",
    "Verif.Props.C08_one_dot_package",
    "Verif.Props.C08_script_relative_import_accepted",
    "Verif.Props.C08_script_in_graph"
   ],
   "note": "For every node and every name; scripts (whose name is a path) recorded separately."
  },
  {
   "property": "C09",
   "status": "proved",
   "theorems": [
    "Verif.Props.C09_invalid_relative"
   ],
   "note": "for every state and whatever the other methods do"
  },
  {
   "property": "C10",
   "status": "proved",
   "theorems": [
    "Verif.Props.C10_linked_to_package",
    "Verif.Props.C10_well_formed_names"
   ],
   "note": "missing hooks of the user are passive; node_for_spec makes modules and packages"
  },
  {
   "property": "C11",
   "status": "proved",
   "theorems": [
    "Verif.Props.C11_excluded_stays",
    "Verif.Props.C11_excluded_observable"
   ],
   "note": ""
  },
  {
   "property": "C12",
   "status": "partial",
   "theorems": [
    "Verif.Props.C12_excluded_partial",
    "Verif.Props.C12_excluded_but_loaded"
   ],
   "note": "proved when modules are found under the name looked for; the code violates the claim otherwise (counterexample)"
  },
  {
   "property": "C13",
   "status": "proved",
   "theorems": [
    "Verif.Props.C13_excluded_step",
    "Verif.Props.C13_missing_step",
    "Verif.Props.C13_excluded",
    "Verif.Props.C13_missing"
   ],
   "note": "one level for arbitrary callees; any depth below the package"
  },
  {
   "property": "C14",
   "status": "proved",
   "theorems": [
    "Verif.Props.C14_configured",
    "Verif.Props.C14_target_linked"
   ],
   "note": "a name whose package is missing or excluded becomes missing or excluded instead"
  },
  {
   "property": "C15",
   "status": "partial",
   "theorems": [
    "Verif.Props.C15_implied_partial",
    "Verif.Props.C15_not_implied"
   ],
   "note": "proved when modules are found under the name looked for; counterexample otherwise"
  },
  {
   "property": "C16",
   "status": "proved",
   "theorems": [
    "Verif.Props.C16_result",
    "Verif.Props.C16_again"
   ],
   "note": "user missing hooks supply no nodes; in C16_again node_for_spec makes modules and packages"
  },
  {
   "property": "C17",
   "status": "proved",
   "theorems": [
    "Verif.Props.C17_known",
    "Verif.Props.C17_unreadable",
    "Verif.Props.C17_added"
   ],
   "note": "the failing calls only change the outside world and the ghost log"
  },
  {
   "property": "C18",
   "status": "partial",
   "theorems": [
    "Verif.Props.C18_missing_partial",
    "Verif.Props.C18_implied_missing"
   ],
   "note": "Proved when the first unknown name on the way is not in the table of implied nodes and only the built-in hooks are installed; C18_implied_missing: with an implies list naming submodules of a missing module add_module raises ValueError."
  },
  {
   "property": "C19",
   "status": "proved",
   "theorems": [
    "Verif.Props.C19_linked",
    "Verif.Props.C19_all_linked",
    "Verif.Props.C19_again",
    "Verif.Props.C19_named",
    "Verif.Props.C19_unknown",
    "Verif.Props.C19_half_done"
   ],
   "note": "user missing hooks supply no nodes; C19_half_done records what happens when it raises"
  },
  {
   "property": "C20",
   "status": "proved",
   "theorems": [
    "Verif.Props.C20_registration",
    "Verif.Props.C20_missing",
    "Verif.Props.C20_missing_log",
    "Verif.Props.C20_post",
    "Verif.Props.C20_hook_asked_twice"
   ],
   "note": "Stated for hooks that do not register further hooks while they run; C20_hook_asked_twice shows that the restriction is needed."
  },
  {
   "property": "C21",
   "status": "proved",
   "theorems": [
    "Verif.Props.C21_first_say",
    "Verif.Props.C21_all_asked"
   ],
   "note": "Every MissingModule in the graph was offered to every missing hook, unless node_for_spec made it from a spec that was found (six.moves and vendored modules; C21_six_not_asked shows this case)."
  },
  {
   "property": "C22",
   "status": "proved",
   "theorems": [
    "Verif.Props.C22_ast_scan_exactly_once",
    "Verif.Props.C22_occurrences_are_nested",
    "Verif.Props.C22_count"
   ],
   "note": "All trees, any set iteration order."
  },
  {
   "property": "C23",
   "status": "partial",
   "theorems": [
    "Verif.Props.C23_ast_flags_partial",
    "Verif.Props.C23_is_optional_is_global",
    "Verif.Props.C23_counterexample_trystar"
   ],
   "note": "False for try/except* (ast.TryStar not handled): counterexample proved; everything else proved."
  },
  {
   "property": "C24",
   "status": "partial",
   "theorems": [
    "Verif.Props.C24_record_names_partial",
    "Verif.Props.C24_plain_import",
    "Verif.Props.C24_counterexample_two_asnames"
   ],
   "note": "False when one name is imported under two as-names (only one kept): counterexample proved; the rest proved."
  },
  {
   "property": "C25",
   "status": "proved",
   "theorems": [
    "Verif.Props.C25_split_package_ok",
    "Verif.Props.C25_split_package_error",
    "Verif.Props.C25_error_is_value_error",
    "Verif.Props.C25_accepted_iff",
    "Verif.Props.C25_reassemble"
   ],
   "note": "A trailing dot is accepted by the code (empty last component); the theorem states exactly which names are accepted."
  },
  {
   "property": "C26",
   "status": "proved",
   "theorems": [
    "Verif.Props.C26_roundtrip",
    "Verif.Props.C26_files"
   ],
   "note": "Whole RECORD files, LF, CRLF or CR line ends, perhaps none after the last line, quoted or plain fields. What becomes of the path is C76."
  },
  {
   "property": "C27",
   "status": "proved",
   "theorems": [
    "Verif.Props.C27_names"
   ],
   "note": "Exact (iff). Finding: recorded scripts outside the site directory (../../bin/tool.py) also get a name, ......bin.tool, by which nothing can be imported (example beside the theorem)."
  },
  {
   "property": "C28",
   "status": "proved",
   "theorems": [
    "Verif.Props.C28_one_object",
    "Verif.Props.C28_retry"
   ],
   "note": "Directories are identified by their path string. Consumers are searches that stop at the first match or never; the world may change arbitrarily in between and at every read."
  },
  {
   "property": "C29",
   "status": "partial",
   "theorems": [
    "Verif.Props.C29_first_match_partial",
    "Verif.Props.C29_unreadable_hides",
    "Verif.Props.C29_until",
    "Verif.Props.C29_error"
   ],
   "note": "False as stated: a dist-info directory that raises OSError hides all later distributions of the same directory (C29_unreadable_hides). Proved when every dist-info directory on the path is readable and the file system does not change."
  },
  {
   "property": "C30",
   "status": "proved",
   "theorems": [
    "Verif.Props.C30_distributions",
    "Verif.Props.C30_exact"
   ],
   "note": "For every graph and every order of iteration (contract of ObjectGraph: IterOf). C30_exact needs that a dist-info directory has one object, which C28 gives for distributions from the cache."
  },
  {
   "property": "C31",
   "status": "proved",
   "theorems": [
    "Verif.Props.C31_report"
   ],
   "note": "For every graph and every order of iteration."
  },
  {
   "property": "C32",
   "status": "partial",
   "theorems": [
    "Verif.Props.C32_sections",
    "Verif.Props.C32_links",
    "Verif.Props.C32_links_partial",
    "Verif.Props.C32_dangling_link"
   ],
   "note": "Sections and links proved for all graphs. The last part is false of the code: links to distribution nodes point to no section (C32_dangling_link); links to other nodes do (C32_links_partial), and all links do in graphs without distribution nodes (C32_links)."
  },
  {
   "property": "C33",
   "status": "proved",
   "theorems": [
    "Verif.Props.C33_statements",
    "Verif.Props.C33_clusters"
   ],
   "note": "For every graph and every order of iteration; text of the file, with the callbacks of the command line."
  },
  {
   "property": "C34",
   "status": "proved",
   "theorems": [
    "Verif.Props.C34_restored",
    "Verif.Props.C34_caches",
    "Verif.Props.C34_command_line"
   ],
   "note": "sys.path object identity, slice assignment and importlib.invalidate_caches are the SysPath contract; the body is any world function with any result, raising included."
  },
  {
   "property": "C35",
   "status": "partial",
   "theorems": [
    "Verif.Props.C35_flagged",
    "Verif.Props.C35_directory_partial",
    "Verif.Props.C35_zip",
    "Verif.Props.C35_no_such_path",
    "Verif.Props.C35_first_subdirectory_only",
    "Verif.Props.C35_directory_like_module",
    "Verif.Props.C35_graph_flagged",
    "Verif.Props.C35_graph_directory_partial",
    "Verif.Props.C35_graph_zip",
    "Verif.Props.C35_graph_no_file"
   ],
   "note": "False for directories in general: only the first sub-directory is looked at and everything listed after it is skipped (C35_first_subdirectory_only, also order dependent). Sound always (C35_flagged), exact for zipped packages (C35_zip) and for directories without data behind the first sub-directory. The C35_graph_* theorems say this of the package nodes in the graph after any run of any client that adds no nodes by hand; the directory is the one of the __init__ file."
  },
  {
   "property": "C36",
   "status": "partial",
   "theorems": [
    "Verif.Props.C36_class_partial",
    "Verif.Props.C36_invalid",
    "Verif.Props.C36_imports",
    "Verif.Props.C36_globals",
    "Verif.Props.C36_moved",
    "Verif.Props.C36_kinds",
    "Verif.Props.C36_makes_modules",
    "Verif.Props.C36_invalid_package"
   ],
   "note": "Node class, imports and globals per loader, for stable loaders. A package whose get_source raises SyntaxError gets no Package around its InvalidModule (C36_invalid_package). Loaders that move modules elsewhere are covered by C36_moved."
  },
  {
   "property": "C37",
   "status": "partial",
   "theorems": [
    "Verif.Props.C37_terminates",
    "Verif.Props.C37_records_partial",
    "Verif.Props.C37_class_marked_as_function",
    "Verif.Props.C37_function_missed",
    "Verif.Props.C37_long_name_fails",
    "Verif.Props.C37_equal_code_objects",
    "Verif.Props.C37_looks_back",
    "Verif.Props.C37_index_unique"
   ],
   "note": "Termination for all code objects. Records exact for compiled code with pairwise different code objects in which classes are made with short arguments and no closure. False otherwise: a class whose code constant needs EXTENDED_ARG is taken for a function, on Python 3.10 a function whose name constant needs EXTENDED_ARG is missed, two EXTENDED_ARG before IMPORT_NAME fail an assertion, equal code objects share one parent list."
  },
  {
   "property": "C38",
   "status": "partial",
   "theorems": [
    "Verif.Props.C38_written_partial",
    "Verif.Props.C38_read_partial",
    "Verif.Props.C38_class_names_read",
    "Verif.Props.C38_closure_names_read"
   ],
   "note": "Exact under the conditions of C37_records_partial; the counterexamples are a class in a module with more than 256 constants and a class in a function that uses variables of the function."
  },
  {
   "property": "C39",
   "status": "proved",
   "theorems": [
    "Verif.Props.C39_explained"
   ],
   "note": "all runs, also failing ones; clients and post hooks use declarative operations only"
  },
  {
   "property": "C40",
   "status": "proved",
   "theorems": [
    "Verif.Props.C40_package",
    "Verif.Props.C40_module",
    "Verif.Props.C40_queued",
    "Verif.Props.C40_run_package"
   ],
   "note": "For imports whose missing hooks, if any, do not call back into the graph (Passive) and environments whose successor iteration yields exactly the successors (OrderExact). C40_run_package states the result for the finished graph of every run in which no call failed and the queue is empty. For six.moves the conclusion is stated with a second copy of its table (SixName), also when the name is shadowed."
  },
  {
   "property": "C41",
   "status": "partial",
   "theorems": [
    "Verif.Props.C41_star_partial",
    "Verif.Props.C41_chain_partial",
    "Verif.Props.C41_depth_first",
    "Verif.Props.C41_loaded_chain_partial",
    "Verif.Props.C41_submodule",
    "Verif.Props.C41_sibling",
    "Verif.Props.C41_cycle",
    "Verif.Props.C41_alias"
   ],
   "note": "Proved for every run without raised exceptions: a star import whose target is a module (not an alias) makes the names the target node itself writes count as written in the importer (C41_star_partial); names travel along every chain of star imports whose name lists are processed from the far end to the near end (C41_chain_partial); the name list of an import statement that loads a module is processed after every statement of that module (C41_depth_first), so chains of any length in which each star import loads the next module are complete (C41_loaded_chain_partial). Missing: the claim is false of the code for aliases (C41_alias), for submodules that star-import their package (C41_submodule), for siblings named by one statement (C41_sibling) and for import cycles (C41_cycle)."
  },
  {
   "property": "C42",
   "status": "proved",
   "theorems": [
    "Verif.Props.C42_terminates",
    "Verif.Props.C42_outcome"
   ],
   "note": "For finite environments (FiniteImports: every name an import, alias, implied module, parent package or from-import can refer to is in a finite set; Returns: the import system itself returns; KeepsFakes: find_spec leaves the fake parent package in sys.modules when it raises and finds no module with the empty name). The bound counts nested calls and work items, depends on the environment only, and holds in every state clients can reach, also after exceptions and with the built-in hooks active. import_package is not covered (C42 does not name it). Python's own recursion limit is not modelled."
  },
  {
   "property": "C43",
   "status": "partial",
   "theorems": [
    "Verif.Props.C43_call_partial",
    "Verif.Props.C43_tree_partial",
    "Verif.Props.C43_namespace",
    "Verif.Props.C43_extension"
   ],
   "note": "Proved: after import_package returned, the importer has an edge to the package and the package to each .py module directly inside (C43_call_partial); when the run ends without failed call and with an empty queue the same holds all the way down the package tree (C43_tree_partial; the directory listings are assumed not to change during the run, missing-module hooks only return None). Missing: modules in namespace packages inside of the package (C43_namespace) and modules whose file is not *.py (C43_extension) are not found by the code."
  },
  {
   "property": "C44",
   "status": "partial",
   "theorems": [
    "Verif.Props.C44_drained",
    "Verif.Props.C44_distribution_drained_partial",
    "Verif.Props.C44_distribution_not_drained",
    "Verif.Props.C44_not_lost"
   ],
   "note": "add_distribution of a known distribution returns without processing left-over work (counterexample)"
  },
  {
   "property": "C45",
   "status": "proved",
   "theorems": [
    "Verif.Props.C45_supplies",
    "Verif.Props.C45_declines"
   ],
   "note": "Exact characterisation (iff) of when the SWIG hook supplies a node, and of the resulting state."
  },
  {
   "property": "C46",
   "status": "proved",
   "theorems": [
    "Verif.Props.C46_other",
    "Verif.Props.C46_no_source",
    "Verif.Props.C46_adds"
   ],
   "note": "Every node, environment and recursion depth. The helper is added with add_module, whose effect is described by the theorems for C13-C16."
  },
  {
   "property": "C47",
   "status": "partial",
   "theorems": [
    "Verif.Props.C47_meaning",
    "Verif.Props.C47_accepted",
    "Verif.Props.C47_roots",
    "Verif.Props.C47_excluded_partial",
    "Verif.Props.C47_order_partial",
    "Verif.Props.C47_last_wins"
   ],
   "note": "Order independence is false for conflicting -m/-s/-d (also -f, -o): C47_last_wins; C47_order_partial keeps the last of these fixed. C47_excluded_partial has the exception of C12 (excluded name below a missing package becomes a missing module). The lexical part of argparse (abbreviations, -h, ordering of positionals) is not modelled."
  },
  {
   "property": "C48",
   "status": "proved",
   "theorems": [
    "Verif.Props.C48_rest_processed",
    "Verif.Props.C48_after_failures",
    "Verif.Props.C48_next_call"
   ],
   "note": "C48_after_failures has the structural guarantees after any client program, C48_next_call the work that is left."
  },
  {
   "property": "C49",
   "status": "proved",
   "theorems": [
    "Verif.Props.C49_import_module"
   ],
   "note": "For missing hooks of the user that do not call back into the graph (Passive)."
  },
  {
   "property": "C50",
   "status": "partial",
   "theorems": [
    "Verif.Props.C50_namespace_partial",
    "Verif.Props.C50_other_name"
   ],
   "note": "False for a namespace package that is found under another name than its own (C50_other_name); proved for all others."
  },
  {
   "property": "C51",
   "status": "proved",
   "theorems": [
    "Verif.Props.C51_stdlib_names"
   ],
   "note": "sys.stdlib_module_names is a list in any order; sorted() is merge sort, strings are compared by code points."
  },
  {
   "property": "C52",
   "status": "partial",
   "theorems": [
    "Verif.Props.C52_main_partial",
    "Verif.Props.C52_other_name"
   ],
   "note": "Proved if the module called __main__ is not found under another name (OnlyAs), hooks do not put nodes or import lists in the graph by hand, and missing hooks are passive. False for a module called __main__ that is found under another name (C52_other_name)."
  },
  {
   "property": "C53",
   "status": "proved",
   "theorems": [
    "Verif.Props.C53_package",
    "Verif.Props.C53_module",
    "Verif.Props.C53_package_in_graph",
    "Verif.Props.C53_module_in_graph"
   ],
   "note": "For loaders that find the module itself (namespace, builtin, extension, frozen, source and bytecode loaders). The *_in_graph theorems are about the nodes of any run of any client that does not add nodes by hand, also when calls failed; the spec is one that was found for the name of the node, perhaps behind six.moves, a vendored package or distutils. distribution_for_file and the search for data files are the functions of C34/C35."
  },
  {
   "property": "C54",
   "status": "proved",
   "theorems": [
    "Verif.Props.C54_written",
    "Verif.Props.C54_usage",
    "Verif.Props.C54_not_built",
    "Verif.Props.C54_unwritable",
    "Verif.Props.C54_status"
   ],
   "note": "File contract: OutputOk; iterators: ObjectGraphOk (shown to be satisfiable). The document is written in one piece in the model."
  },
  {
   "property": "C55",
   "status": "partial",
   "theorems": [
    "Verif.Props.C55_roots",
    "Verif.Props.C55_source_partial",
    "Verif.Props.C55_unparsable",
    "Verif.Props.C55_relative_ignored",
    "Verif.Props.C55_attributes_are_roots",
    "Verif.Props.C55_text_partial",
    "Verif.Props.C55_text_unparsable"
   ],
   "note": "Every import in the source becomes a root, for every tree and state (C55_roots, C55_source_partial). Partial: relative imports are not resolved but taken as absolute names by the code (C55_relative_ignored), and attributes imported from modules become missing roots (C55_attributes_are_roots)."
  },
  {
   "property": "C56",
   "status": "proved",
   "theorems": [
    "Verif.Props.C56_add_module",
    "Verif.Props.C56_import_module",
    "Verif.Props.C56_invalid_becomes_root",
    "Verif.Props.C56_below_invalid"
   ],
   "note": "For all names and states without nodes for invalid relative imports; with such a node in the graph add_module accepts its name and makes it a root (C56_invalid_becomes_root), and for names below it raises AssertionError (C56_below_invalid)."
  },
  {
   "property": "C57",
   "status": "proved",
   "theorems": [
    "Verif.Props.C57_roots_asked",
    "Verif.Props.C57_one_operation",
    "Verif.Props.C57_mypyc_root"
   ],
   "note": "For all clients and post-processing hooks; the user's missing hooks do not call the graph. C57_mypyc_root shows that the exception for mypyc helpers is needed."
  },
  {
   "property": "C58",
   "status": "proved",
   "theorems": [
    "Verif.Props.C58_module",
    "Verif.Props.C58_script"
   ],
   "note": "Composition of C22-C24, C36, C07 and C40. Client and post-processing hooks only describe what to add (Building), missing hooks are passive, loaders are stable. six.moves and star imports are left out of the part about names (C41, C40 deal with them)."
  },
  {
   "property": "C59",
   "status": "proved",
   "theorems": [
    "Verif.Props.C59_reachable",
    "Verif.Props.C59_all_listed",
    "Verif.Props.C59_orphan"
   ],
   "note": "C59_orphan: the exception is real, from p import version with a variable version in p leaves an unreachable MissingModule p.version. add_node, import_module, import_package and _process_import_list are excluded because they can be given nodes that are not in the graph."
  },
  {
   "property": "C60",
   "status": "proved",
   "theorems": [
    "Verif.Props.C60_kept",
    "Verif.Props.C60_only_fakes",
    "Verif.Props.C60_fake_left",
    "Verif.Props.C60_lost",
    "Verif.Props.C60_swig_lost"
   ],
   "note": "sys.modules is the dictionary behind inSysModules/popModule/setModule/setFake/delModule (SysDict); Searches excludes the two cases in which entries do get lost, which C60_lost and C60_swig_lost show"
  },
  {
   "property": "C61",
   "status": "proved",
   "theorems": [
    "Verif.Props.C61_nothing_else",
    "Verif.Props.C61_exact",
    "Verif.Props.C61_built"
   ],
   "note": "The conditions on the modules (Setup.Tame) are needed: see the counterexamples of C62. The example in Props/ExactExample.lean has a setup that meets all of them. Names taken from six.moves: Props/SixExact.lean. A module compiled with mypyc: Props/MypycExact.lean."
  },
  {
   "property": "C62",
   "status": "partial",
   "theorems": [
    "Verif.Props.C62_order_partial",
    "Verif.Props.C62_reexport_order",
    "Verif.Props.C62_behind_order",
    "Verif.Props.C62_choice_order",
    "Verif.Props.C62_link_order",
    "Verif.Props.C62_global_order"
   ],
   "note": "False of the code in general: with import cycles the edge for a module that is imported from a package or module that only imports it (C62_reexport_order, C62_behind_order) and the node for a name that a package imports from elsewhere (C62_global_order) depend on the order; if the other module has two modules of that name the edge depends on the order in which the graph gives edges (C62_choice_order); the edge from a missing submodule to its package depends on the order even without cycles (C62_link_order). Proved for modules that meet Setup.Tame and runs without a failed call. What is missing: modules that do not meet Tame."
  },
  {
   "property": "C63",
   "status": "proved",
   "theorems": [
    "Verif.Props.C63_no_failure",
    "Verif.Props.C63_returns",
    "Verif.Props.C63_total",
    "Verif.Props.C63_finite",
    "Verif.Props.C63_in_worlds",
    "Verif.Props.C63_turtledemo",
    "Verif.Props.C63_turtledemo_import",
    "Verif.Props.C63_excluded",
    "Verif.Props.C63_names",
    "Verif.Props.C63_script_twice"
   ],
   "note": "Conditions in Spec/SafeSpec.lean and Spec/ExactSpec.lean. C63_finite needs no universe of names as a hypothesis: finitely many modules are enough. Modules compiled with mypyc are included: their helper modules are added and the statements in their sources are followed (example in Props/MypycExact.lean). The condition on packages that bring their own submodules is needed: with the stdlib table and a Python without turtledemo, add_module(\"turtledemo.nim\") raises ValueError (C63_turtledemo). C63_in_worlds only needs the modules in worlds with a property I that searching and reading them keeps, and nothing about hooks or replaced modules."
  },
  {
   "property": "C64",
   "status": "partial",
   "theorems": [
    "Verif.Props.C64_stored_partial",
    "Verif.Props.C64_class_global"
   ],
   "note": "Holds under the conditions of C37_records_partial for all code that is not the body of a class; false for class bodies: STORE_GLOBAL in a class body is ignored."
  },
  {
   "property": "C65",
   "status": "partial",
   "theorems": [
    "Verif.Props.C65_table_partial",
    "Verif.Props.C63_turtledemo",
    "Verif.Props.C65_entries"
   ],
   "note": "False for installations without turtledemo or dbm: the table has turtledemo -> turtledemo.nim etc., and add_module(\"turtledemo.nim\") then raises ValueError (C63_turtledemo). Proved when these two packages are installed as soon as they are needed. Also missing: modules found under other names."
  },
  {
   "property": "C66",
   "status": "proved",
   "theorems": [
    "Verif.Props.C66_installed",
    "Verif.Props.C66_project"
   ],
   "note": "Conditions in Spec/ProjectSpec.lean (Project.Clear, Project.Shows) and, with distributions and pieces of source code, Spec/InstalledSpec.lean (Project.Fits). C66_project is the case of modules and scripts. Example in Props/ProjectExample.lean with a package, relative imports (one that points outside), a star import, an imported variable, a namespace package, an extension module, missing modules, an implied module, an alias, an excluded package and a script; another one with the built-in table in Props/StdlibExample.lean, and one with a module that is passed on by two others in Props/RelayExample.lean. Frozen modules, bytecode without source and modules that cannot be compiled: Props/FrozenExample.lean; packages that extend their path or cannot be compiled: Props/ExtendedExample.lean (CodeOf relates code objects and import statements, under the conditions of C37_records_partial). The project only has to be there in worlds with a property I, for example while a directory is in sys.path."
  },
  {
   "property": "C67",
   "status": "proved",
   "theorems": [
    "Verif.Props.C67_command",
    "Verif.Props.C67_distributions"
   ],
   "note": "Combines C66, C47, C34 and C54. Conditions: Project.Clear and Project.Shows (Spec/ProjectSpec.lean), Writable and OutputOk for the output (Spec/CommandSpec.lean, Spec/MainSpec.lean). C67_distributions is the case of -d. Examples in Props/CommandExample.lean: -p /src -x e -s -o /out -f dot /s, and -p /src -x e -d -o /out Shop."
  },
  {
   "property": "C68",
   "status": "partial",
   "theorems": [
    "Verif.Props.C68_read",
    "Verif.Props.C68_export",
    "Verif.Props.C68_written",
    "Verif.Props.C68_injection",
    "Verif.Props.C68_unreadable"
   ],
   "note": "Proved for names without quote, newline and final backslash (Spec.Dot.Plain); false in general: C68_injection (a script called a\" -> \"b shows an edge between two other nodes), C68_unreadable. The reader of the DOT language is Spec/DotSpec.lean."
  },
  {
   "property": "C69",
   "status": "proved",
   "theorems": [
    "Verif.Props.C69_picture",
    "Verif.Props.C69_command"
   ],
   "note": "Combines C67 and C68. Conditions as for C67, and names without quote, newline and final backslash. Example in Props/PictureExample.lean."
  },
  {
   "property": "C70",
   "status": "partial",
   "theorems": [
    "Verif.Props.C70_read",
    "Verif.Props.C70_export",
    "Verif.Props.C70_written",
    "Verif.Props.C70_injection",
    "Verif.Props.C70_unreadable"
   ],
   "note": "Proved for names without quote, < and & (Spec.Html.Plain); false in general: C70_injection (a script called <a name='y'></a> makes a section y), C70_unreadable. The reader of HTML is Spec/HtmlSpec.lean."
  },
  {
   "property": "C71",
   "status": "proved",
   "theorems": [
    "Verif.Props.C71_page",
    "Verif.Props.C71_command"
   ],
   "note": "Combines C67 and C70. Conditions as for C67, and names without quote, < and &. Example in Props/PageExample.lean."
  },
  {
   "property": "C72",
   "status": "proved",
   "theorems": [
    "Verif.Props.C72_found",
    "Verif.Props.C72_missing",
    "Verif.Props.C72_masked",
    "Verif.Props.C72_asserts",
    "Verif.Props.C72_interrupted"
   ],
   "note": "Spec/LocateSpec.lean describes a search in terms of find_spec and sys.modules. C72_masked and C72_asserts record that the exception of the search itself is lost; C72_interrupted that interrupts are not."
  },
  {
   "property": "C73",
   "status": "proved",
   "theorems": [
    "Verif.Props.C73_passed_on"
   ],
   "note": "Conditions of C66 (Project.Clear). Example in Props/RelayExample.lean: a script gets json by way of two modules, one of which renames it."
  },
  {
   "property": "C74",
   "status": "proved",
   "theorems": [
    "Verif.Props.C74_fares",
    "Verif.Props.C74_total",
    "Verif.Props.C74_served",
    "Verif.Props.C74_unknown",
    "Verif.Props.C74_collections_abc",
    "Verif.Props.C74_alias"
   ],
   "note": "Fares in Spec/MovedSpec.lean says what becomes of a served module, with its own copy of the table. C74_collections_abc records a name of current versions of six that is always missing."
  },
  {
   "property": "C75",
   "status": "proved",
   "theorems": [
    "Verif.Props.C75_shown",
    "Verif.Props.C75_graph",
    "Verif.Props.C75_command"
   ],
   "note": "The model of _distributions.py (Model/Distributions.lean) is put into the graph builder (Model/DistWorld.lean). Shelf in Spec/ShelfSpec.lean is what is on disk, S.OnDisk that the disk shows it. Reading does not change it; METADATA has Name and Version (C77), the paths in RECORD are seen from the directory with the dist-info directory (C76); other exceptions than OSError are covered by C29_error. Conditions of C66 for the project. C75_command is the command line with -d, with the search path as changed by -p. Examples in Props/Shelf.lean and Props/ShelfCommand.lean."
  },
  {
   "property": "C76",
   "status": "proved",
   "theorems": [
    "Verif.Props.C76_means",
    "Verif.Props.C76_normpath",
    "Verif.Props.C76_text",
    "Verif.Props.C76_same",
    "Verif.Props.C76_file",
    "Verif.Props.C76_files",
    "Verif.Props.C76_plain",
    "Verif.Props.C76_normal_only",
    "Verif.Props.C76_relative",
    "Verif.Props.C76_other_spelling"
   ],
   "note": "os.path.join, dirname and normpath are modelled (Model/Paths.lean); what a path means is defined step by step in Spec/PathSpec.lean. Findings: contains_file compares texts, so when an entry of sys.path has '..' in it or is relative, the file that a finder reports is not found in the distribution (C76_other_spelling, C76_relative)."
  },
  {
   "property": "C77",
   "status": "proved",
   "theorems": [
    "Verif.Props.C77_fields",
    "Verif.Props.C77_all",
    "Verif.Props.C77_value",
    "Verif.Props.C77_distribution",
    "Verif.Props.C77_not_ascii"
   ],
   "note": "The header part of email.parser with the policy compat32 is modelled (Model/Metadata.lean), with surrogate escapes as characters from 128 on. File in Spec/MetadataSpec.lean says which fields a text has, whatever its lines; every text has some (C77_all)."
  },
  {
   "property": "C78",
   "status": "partial",
   "theorems": [
    "Verif.Props.C78_uses_partial",
    "Verif.Props.C78_sound",
    "Verif.Props.C78_no_code",
    "Verif.Props.C78_class_body"
   ],
   "note": "C78_uses_partial: exactly the reads outside of class bodies, for the nodes of any run; C78_sound: a module that says so reads the variable. Missing: reads in class bodies, C78_class_body shows that these are not found."
  },
  {
   "property": "C79",
   "status": "proved",
   "theorems": [
    "Verif.Props.C79_import_module",
    "Verif.Props.C79_add_module",
    "Verif.Props.C79_import_package"
   ],
   "note": "Hooks registered first are called for every node of any later state without failed calls and with an empty work stack, and what they ask for is in the graph. Assumed, as in C05: loaders make module nodes, missing-module hooks only look, nobody adds nodes or lists of import statements by hand, and nodes supplied by SWIG wrappers are excluded (C05 shows why)."
  },
  {
   "property": "C80",
   "status": "proved",
   "theorems": [
    "Verif.Props.C80_picture",
    "Verif.Props.C80_page",
    "Verif.Props.C80_command_dot",
    "Verif.Props.C80_command_html"
   ],
   "note": "C67 for -d combined with C68 and C70; names must not contain quotes or markup, as in C69 and C71. Links to distributions lead to no section of the page (see C32); the statement says so. Examples in Props/DistPictureExample.lean."
  },
  {
   "property": "C81",
   "status": "proved",
   "theorems": [
    "Verif.Props.C81_told",
    "Verif.Props.C81_in_graph"
   ],
   "note": "For all clients, environments and recursion depths; missing hooks are passive (they do not use the graph), nobody passes lists of import statements by hand (_process_import_list)."
  },
  {
   "property": "C82",
   "status": "proved",
   "theorems": [
    "Verif.Props.C82_exceptions",
    "Verif.Props.C82_no_lookup_error",
    "Verif.Props.C82_result",
    "Verif.Props.C82_node_for_spec",
    "Verif.Props.C82_together",
    "Verif.Props.C82_foreign",
    "Verif.Props.C82_foreign_hook",
    "Verif.Props.C82_bad_code"
   ],
   "note": "For all careful clients and hooks (they pass only nodes of the graph) and all environments; C82_together is with node_for_spec and the functions of _distributions.py in place of assumptions on them. Without care KeyError does occur (C82_foreign, C82_foreign_hook), and code that no compiler makes gives IndexError (C82_bad_code)."
  },
  {
   "property": "C83",
   "status": "partial",
   "theorems": [
    "Verif.Props.C83_exceptions",
    "Verif.Props.C83_lookup_partial",
    "Verif.Props.C83_unlabelled"
   ],
   "note": "False as stated: METADATA without Name or Version gives an AssertionError, which add_module passes on for any module that has a file (C83_unlabelled). Proved: no OSError leaves a lookup, whatever the disk does (C83_exceptions), and nothing fails when METADATA files that can be read have a name and a version (C83_lookup_partial). Exceptions of reading other than OSError, such as those of decoding RECORD, are passed on."
  },
  {
   "property": "C84",
   "status": "partial",
   "theorems": [
    "Verif.Props.C84_until",
    "Verif.Props.C84_all_partial",
    "Verif.Props.C84_objects",
    "Verif.Props.C84_body",
    "Verif.Props.C84_lookups",
    "Verif.Props.C84_unreadable_hides"
   ],
   "note": "False as stated: a dist-info directory that cannot be read hides the rest of its directory (C84_unreadable_hides). Proved: what is visited exactly (C84_until), that it is everything when all dist-info directories can be read (C84_all_partial), identity of the objects without any condition on the disk (C84_objects), that the body runs once for every distribution visited (C84_body), and that the searches of the library are loops of this kind (C84_lookups). The path is a list that does not change during the loop."
  },
  {
   "property": "C85",
   "status": "partial",
   "theorems": [
    "Verif.Props.C85_exceptions_partial",
    "Verif.Props.C85_unknown_distribution"
   ],
   "note": "False as stated: an unknown distribution or a bad module name gives a ValueError, a missing script an OSError, a standard output that cannot be written an OSError, all passed on (C85_unknown_distribution). Proved: exceptions that leave the command were raised outside, or are AssertionError or ValueError, and an OSError of the output file is not among them. Which status is given when is C54."
  }
 ]
}
