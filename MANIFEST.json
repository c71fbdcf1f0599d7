{
 "claims": [
  {
   "property": "C01",
   "status": "proved",
   "theorems": [
    "Verif.C01_round_trip",
    "Verif.C01_values",
    "Verif.C01_builtins"
   ],
   "note": "Built-in types, numpy scalars and arrays, pickled objects and subclass instances, any sharing, any history of the file."
  },
  {
   "property": "C02",
   "status": "proved",
   "theorems": [
    "Verif.C02_sharing",
    "Verif.C02_everywhere"
   ],
   "note": "Sharing along every pair of paths; C02_everywhere also covers objects reachable only through sets."
  },
  {
   "property": "C03",
   "status": "partial",
   "theorems": [
    "Verif.C03_partial",
    "Verif.C03_violated",
    "Verif.C12_violated_key",
    "Verif.C12_violated_keys"
   ],
   "note": "The code violates the full property: no object that contains itself, once dumped, can ever be loaded (proved for all of them); nor can a dict with an instance of a str subclass as key. Proved for acyclic objects."
  },
  {
   "property": "C04",
   "status": "proved",
   "theorems": [
    "Verif.C04_any_order"
   ],
   "note": "Any two orders of listing group members give isomorphic objects."
  },
  {
   "property": "C05",
   "status": "proved",
   "theorems": [
    "Verif.C05_integers",
    "Verif.C05_in_sets"
   ],
   "note": "Every int at every path that is stored as an item of its own, and in sets with a non-number. (Ints inside all-number sequences: C10.)"
  },
  {
   "property": "C06",
   "status": "proved",
   "theorems": [
    "Verif.C06_text",
    "Verif.C06_in_sets",
    "Verif.C06_surrogates"
   ],
   "note": "Every str and bytes at every path and in sets; a returned dump contains no lone surrogate."
  },
  {
   "property": "C07",
   "status": "proved",
   "theorems": [
    "Verif.C07_names",
    "Verif.C07_slots",
    "Verif.C07_nan"
   ],
   "note": "TextOk says which characters Python's repr of floats and complex numbers is made of."
  },
  {
   "property": "C08",
   "status": "partial",
   "theorems": [
    "Verif.C08_partial",
    "Verif.C08_violated_false",
    "Verif.C08_violated_falses",
    "Verif.C08_violated_numpy",
    "Verif.C12_violated_key",
    "Verif.C12_violated_keys"
   ],
   "note": "The code violates the full property: the key False loads as True, a numpy number key with a number as value can change its type, a dict with an instance of a str subclass as key can not be loaded. Proved for all other keys."
  },
  {
   "property": "C09",
   "status": "proved",
   "theorems": [
    "Verif.C09_order"
   ],
   "note": "Every list and tuple (also subclass instances) at every path."
  },
  {
   "property": "C10",
   "status": "partial",
   "theorems": [
    "Verif.C10_exact",
    "Verif.C10_kept",
    "Verif.C10_partial",
    "Verif.C10_sets_partial",
    "Verif.F64.ofInt_nearest",
    "Verif.C10_violated_list",
    "Verif.C10_violated_set"
   ],
   "note": "The code violates the full property: [2**53+1, 0.5] loses precision and a set can shrink. For every list and tuple it is proved exactly which numbers keep their value (iff), and that the others become the nearest float. For sets: proved when ints next to floats are representable as floats."
  },
  {
   "property": "C11",
   "status": "proved",
   "theorems": [
    "Verif.C11_second_round_trip"
   ],
   "note": "The second loaded object is isomorphic to the first, classes and values identical."
  },
  {
   "property": "C12",
   "status": "partial",
   "theorems": [
    "Verif.C12_partial",
    "Verif.C12_violated_str",
    "Verif.C12_violated_strs",
    "Verif.C12_violated_defaultdict",
    "Verif.C12_violated_namedtuple",
    "Verif.C12_violated_key",
    "Verif.C12_violated_keys"
   ],
   "note": "The code violates the full property: str subclasses load with another value (C12_violated_strs: for every subclass of str, load gives what the constructor makes of an array), defaultdict and named tuples fail to load, and so do dicts with an instance of a str subclass as key (C12_violated_keys: every such key without slashes makes reading its entry raise). Proved for subclasses whose constructor accepts what the base class accepts."
  },
  {
   "property": "C13",
   "status": "proved",
   "theorems": [
    "Verif.C13_pickled",
    "Verif.C13_unpicklable",
    "Verif.C13_no_loader",
    "Verif.C13_not_hicklable"
   ],
   "note": "Objects without a loader come back from pickle at every path; unpicklable ones make dump raise; refusing loaders fall back to pickle in every registration state."
  },
  {
   "property": "C14",
   "status": "proved",
   "theorems": [
    "Verif.C14_refused",
    "Verif.C14_preserved"
   ],
   "note": "Any file, path and object; also what a dump to another path preserves."
  },
  {
   "property": "C15",
   "status": "proved",
   "theorems": [
    "Verif.C15_independent",
    "Verif.C15_history",
    "Verif.C15_beneath_data",
    "Verif.C15_beneath_table"
   ],
   "note": "Every history of calls; the last two theorems show that the condition on the paths is needed."
  },
  {
   "property": "C16",
   "status": "partial",
   "theorems": [
    "Verif.C16_partial",
    "Verif.C16_violated",
    "Verif.C16_violated_dict"
   ],
   "note": "The code violates the full property: a failed dump can leave a file that loads as a different list or dict. Proved: what was there before is not affected."
  },
  {
   "property": "C17",
   "status": "partial",
   "theorems": [
    "Verif.C17_exclusive_partial",
    "Verif.C17_clean_partial",
    "Verif.C17_independent",
    "Verif.C17_dump",
    "Verif.C17_load_partial",
    "Verif.C17_dump_refused",
    "Verif.C17_load_refused",
    "Verif.C17_violated_collected",
    "Verif.C17_violated_overlay"
   ],
   "note": "The code violates the full property in two cases: types table in an overlay, and managers collected late. Proved for all other histories."
  },
  {
   "property": "C18",
   "status": "partial",
   "theorems": [
    "Verif.C18_given_partial",
    "Verif.C18_closes_partial",
    "Verif.C18_violated_flush",
    "Verif.C18_violated_always"
   ],
   "note": "The code violates the full property: when flush() raises, the file hickle opened stays open. Proved: handles passed in are never closed, and without such a fault every handle opened by the call is closed afterwards, on success and on failure."
  },
  {
   "property": "C19",
   "status": "partial",
   "theorems": [
    "Verif.C19_partial",
    "Verif.C19_violated_enabled",
    "Verif.C19_violated_disabled"
   ],
   "note": "The code violates the full property: gc is enabled by every call even if it was disabled before, and a raising close() leaves it disabled. Proved: enabled before and close() does not raise, then enabled after."
  },
  {
   "property": "C20",
   "status": "partial",
   "theorems": [
    "Verif.C20_closed",
    "Verif.C20_readonly",
    "Verif.C20_readonly_any",
    "Verif.C20_objects",
    "Verif.C20_names",
    "Verif.C20_paths",
    "Verif.C20_errors",
    "Verif.C20_violated_mode",
    "Verif.C20_violated_b"
   ],
   "note": "All documented decisions are proved for every argument; the documented modes w+ and x+ do not work for file names, and a leading b is treated inconsistently (negations proved)."
  },
  {
   "property": "C21",
   "status": "proved",
   "theorems": [
    "Verif.C21_errors",
    "Verif.C21_complete"
   ],
   "note": "Any file content. Failures of flush and close are under C18."
  },
  {
   "property": "C22",
   "status": "proved",
   "theorems": [
    "Verif.C22_v3",
    "Verif.C22_v4_or_current",
    "Verif.C22_refused",
    "Verif.C22_own",
    "Verif.C22_mixed"
   ],
   "note": "The decision is proved for all attribute contents. The readers of older formats themselves are not modelled."
  },
  {
   "property": "C23",
   "status": "partial",
   "theorems": [
    "Verif.C23_partial",
    "Verif.C23_load",
    "Verif.C23_violated"
   ],
   "note": "Every object graph without 0-d arrays and every set of compression, compression_opts (with compression), shuffle and fletcher32: same outcome and same file contents. Violated by 0-d arrays (TypeError). Explicit chunks and scaleoffset are not covered: h5py refuses some for their shape or type."
  },
  {
   "property": "C24",
   "status": "partial",
   "theorems": [
    "Verif.C24_partial",
    "Verif.C24_none",
    "Verif.C24_unknown",
    "Verif.C24_violated",
    "Verif.C24_violated_ever"
   ],
   "note": "Proved for every options dictionary and every later history when the target group carries no other option attributes. Violated: a dump refused for an unknown option leaves it on the group, and a later dump there without it cannot be loaded."
  },
  {
   "property": "C25",
   "status": "partial",
   "theorems": [
    "Verif.C25_pickle",
    "Verif.C25_partial",
    "Verif.C25_violated"
   ],
   "note": "After every history of registrations, exclusions of other names and lookups the core loaders answer as at the start; the pickle loader also survives every exclusion. Violated: register_class_exclude accepts b'!node-reference!' (and '!recover!'), after which files with shared objects cannot be loaded."
  },
  {
   "property": "C26",
   "status": "partial",
   "theorems": [
    "Verif.C26_partial",
    "Verif.C26_replace",
    "Verif.C26_sets",
    "Verif.C26_violated"
   ],
   "note": "Proved for all class hierarchies, registries and option sets when loader modules register classes of their own package; with a module that registers another package's class the first lookup differs from later ones (C26_violated)."
  },
  {
   "property": "C27",
   "status": "partial",
   "theorems": [
    "Verif.C27_sequence",
    "Verif.C27_partial",
    "Verif.C27_dump",
    "Verif.C27_violated"
   ],
   "note": "Every sequence of stores: one entry per class, nodes resolve to their class and to the name the class was stored with first; that is the node's own name unless the loader of the class changes during the dump (C27_violated)."
  },
  {
   "property": "C28",
   "status": "partial",
   "theorems": [
    "Verif.C28_partial",
    "Verif.C28_lost_partial",
    "Verif.C28_others_partial",
    "Verif.C28_none_missing",
    "Verif.C28_violated_empty",
    "Verif.C28_violated_set",
    "Verif.C28_violated_key",
    "Verif.C28_violated_name"
   ],
   "note": "C28_partial: for every acyclic graph and every set of classes that are missing when the file is loaded, load returns; instances of missing classes become recovered groups or arrays with all members, data, attributes and loader name (RecoveredCopy), everything else is a copy. C28_lost_partial/C28_others_partial say so for the object at the end of a path. Excluded by hypothesis, as the code fails for them: empty lists and tuples of a missing class, instances inside set elements and dict keys (load raises, shown as violations); also inside arrays of objects, and scipy or astropy subclasses. The loader name of pickled objects is not given (violation)."
  },
  {
   "property": "C29",
   "status": "proved",
   "theorems": [
    "Verif.C29_stale"
   ],
   "note": "Any file content: stale references to the class entry, its loader name, or another node."
  },
  {
   "property": "C30",
   "status": "partial",
   "theorems": [
    "Verif.C30_partial",
    "Verif.C30_readonly",
    "Verif.C30_with_table",
    "Verif.C30_violated"
   ],
   "note": "The code violates the full property: loading from a writable file whose group lacks the types table adds an empty one. Proved otherwise."
  },
  {
   "property": "C31",
   "status": "proved",
   "theorems": [
    "Verif.C31_file",
    "Verif.C31_reads",
    "Verif.C31_sparse",
    "Verif.C31_sparse_class"
   ],
   "note": "Every history of operations on any number of proxies; and the redirection of the members of a sparse matrix of hickle 4 for every listing of members."
  },
  {
   "property": "C32",
   "status": "partial",
   "theorems": [
    "Verif.V3.C32_names",
    "Verif.V3.C32_running",
    "Verif.V3.C32_sequence",
    "Verif.V3.C32_file",
    "Verif.V3.C32_violated_mixed",
    "Verif.V3.C32_violated_ascii"
   ],
   "note": "Proved for every count of members named by a running number, every listing order, and the visiting of sequences and files. Violated for groups that also hold a member without a number (text order) and for names outside ASCII (UnicodeEncodeError)."
  },
  {
   "property": "C33",
   "status": "partial",
   "theorems": [
    "Verif.C33_numbers_partial",
    "Verif.C33_strings_partial",
    "Verif.C33_objects_partial",
    "Verif.C33_violated_no_strings",
    "Verif.C33_violated_shape",
    "Verif.C33_violated_lists",
    "Verif.C33_violated_boxed_list",
    "Verif.C33_violated_mixed_numbers",
    "Verif.C33_violated_scalar",
    "Verif.C33_violated_rows"
   ],
   "note": "Numeric arrays of every shape (0-d and empty included), string arrays without an empty dimension, and object arrays whose elements are no sequences and whose rows are not all numbers come back exactly. The code violates the rest: empty string arrays cannot be loaded or lose dimensions, arrays of lists change shape, object arrays of numbers change the type of elements. Dtypes and arrays of bytes and structures are C51."
  },
  {
   "property": "C34",
   "status": "proved",
   "theorems": [
    "Verif.C34_sparse",
    "Verif.C34_masked"
   ],
   "note": "For every csr/csc/bsr matrix and numeric masked array anywhere in a dumped graph and every member order. Fill value and hard mask are not modelled (the code does not store them); scipy's constructor is taken to keep the arrays it is given."
  },
  {
   "property": "C35",
   "status": "proved",
   "theorems": [
    "Verif.C35_no_alias",
    "Verif.C35_lookup"
   ],
   "note": "The dump is modelled a second time with the memo keyed by addresses and a memory manager that gives temporaries any address not in use. For every such memory manager, placement of objects and graph, the outcome and the file equal those of the dump that never confuses objects. The temporaries of the model are key/value tuples; array views take the same path. An example shows that the claim fails when the memo does not keep objects alive."
  },
  {
   "property": "C36",
   "status": "partial",
   "theorems": [
    "Verif.C36_partial",
    "Verif.C36_exact",
    "Verif.C36_duplicate",
    "Verif.C36_violated_missing",
    "Verif.C36_violated_repeated"
   ],
   "note": "For every file and every group loaded as a list or tuple: what a successful load returns is determined; two members at one position are refused unless the earlier is (). Violated: a missing item loads as (), and an item () is silently dropped when another claims its position."
  },
  {
   "property": "C37",
   "status": "proved",
   "theorems": [
    "Verif.C37_terminates",
    "Verif.C37_once"
   ],
   "note": "C37_terminates: for every finite graph whose classes are covered by the model, cyclic or not, dump does not run out of stack as soon as (D+1)n+1 nested calls are allowed for n objects (D: most dimensions of a string or object array, at least 1). C37_once: after a successful dump of any such graph, a relation between nodes and objects shows that every list, tuple, set, dict, array, sparse matrix and pickled object that is part of the dumped one is contained in exactly one node (0-d object arrays must not hold a list or array: those items are written into the array's node) and everything else below the data node is a reference or a single value."
  },
  {
   "property": "C38",
   "status": "partial",
   "theorems": [
    "Verif.Astro.C38_exact",
    "Verif.Astro.C38_partial",
    "Verif.Astro.C38_inside_partial",
    "Verif.Astro.C38_violated_inside",
    "Verif.Astro.C38_accepted",
    "Verif.Astro.C38_refused",
    "Verif.Astro.C38_violated",
    "Verif.Astro.C38_violated_type",
    "Verif.Astro.C38_violated_base_type",
    "Verif.Astro.C38_violated_colnames",
    "Verif.Astro.C38_violated_handed",
    "Verif.Astro.C38_violated_bytes"
   ],
   "note": "C38_exact: for every table, containing object and listing order of attributes, what each metadata key loads as. C38_partial: a table dumped by itself comes back with its metadata and no other when no key is type, base_type or colnames and no value is a byte string. C38_inside_partial: inside of another object its entries come back if their keys are not those handed down. Violated by each of these keys, by byte strings (h5py 3 returns text), and by every table inside of a list or dict: item_index, key_idx and key_base_type are metadata afterwards (C38_violated_inside)."
  },
  {
   "property": "C39",
   "status": "proved",
   "theorems": [
    "Verif.C39_round_trip",
    "Verif.C39_history",
    "Verif.C39_others",
    "Verif.C39_load",
    "Verif.C39_exclusive",
    "Verif.C39_truncates"
   ],
   "note": "h5py.File is modelled by its documentation (modes); the condition on options and the object graph is that of C01."
  },
  {
   "property": "C40",
   "status": "partial",
   "theorems": [
    "Verif.C40_total_partial",
    "Verif.C40_round_trip",
    "Verif.C40_violated_int",
    "Verif.C40_violated_nan",
    "Verif.C40_violated_ragged"
   ],
   "note": "C40_total_partial: dump returns for every graph of DumpDomain (cyclic or not), to every free path of a file with any content, when (d+1)n+1 nested calls are allowed for n objects, d being the highest number of dimensions (at least 2). C40_round_trip: acyclic graphs are stored and read back, without assuming that dump returns. The domain has all modelled kinds of objects, numpy arrays of numbers, strings and objects, masked arrays and sparse matrices among them. It excludes what the program refuses: ints beyond 64 bits among numbers, two NaN keys, ragged nesting behind a number (each shown as a violation), lone surrogates, NUL in names, 0-d arrays with compression (C23)."
  },
  {
   "property": "C41",
   "status": "partial",
   "theorems": [
    "Verif.V3.C41_partial",
    "Verif.V3.C41_others",
    "Verif.V3.C41_violated_str",
    "Verif.V3.C41_violated_nul",
    "Verif.V3.C41_violated_bytes",
    "Verif.V3.C41_violated_uint",
    "Verif.V3.C41_violated_false",
    "Verif.V3.C41_violated_lost",
    "Verif.V3.C41_violated_none",
    "Verif.V3.C41_violated_byteskey",
    "Verif.V3.C41_violated_slash",
    "Verif.V3.C41_violated_ascii",
    "Verif.V3.C41_violated_inf",
    "Verif.V3.C41_violated_frozenset",
    "Verif.V3.C41_violated_masked",
    "Verif.V3.C41_violated_root"
   ],
   "note": "C41_partial: for every value in CleanTop (nested to any depth, every listing order, any free path or a new file) load gives the same value; items of a homogeneous list of numbers are numpy scalars of the same value. Each exclusion of CleanTop is a defect shown by a C41_violated theorem. C41_others: objects at other paths are loaded as before. Missing: keyword arguments of dump, string and object arrays, np.dtype, astropy."
  },
  {
   "property": "C42",
   "status": "partial",
   "theorems": [
    "Verif.Astro.C42_quantity_partial",
    "Verif.Astro.C42_quantity_exact",
    "Verif.Astro.C42_skycoord_partial",
    "Verif.Astro.C42_time_partial",
    "Verif.Astro.C42_constant_partial",
    "Verif.Custom.Astropy.C42_graphs_partial",
    "Verif.Astro.C42_violated_complex",
    "Verif.Astro.C42_violated_int",
    "Verif.Astro.C42_violated_frame",
    "Verif.Astro.C42_violated_icrs",
    "Verif.Astro.C42_violated_time",
    "Verif.Astro.C42_violated_datetime",
    "Verif.Astro.C42_violated_filters",
    "Verif.Astro.C42_violated_constant"
   ],
   "note": "Quantities and angles of reals that fit float64 (any shape) keep numbers and unit; ICRS coordinates without distance (any shape), times whose value determines the instant, and constants with h5py 3 come back equal, also anywhere in graphs of lists with sharing (C42_graphs_partial, an instance of C54). False for complex and large integers, other frames, distances, times beyond float precision, datetime formats, scalar text times with compression, h5py 2 constants: proved by C42_violated_*."
  },
  {
   "property": "C43",
   "status": "partial",
   "theorems": [
    "Verif.C43_history_partial",
    "Verif.C43_sequence_partial",
    "Verif.C43_violated"
   ],
   "note": "Outcome and file of a dump, failing or not, are the same after any two histories. Missing: loader modules that register classes of other packages (violated), custom dump functions."
  },
  {
   "property": "C44",
   "status": "partial",
   "theorems": [
    "Verif.Search.C44_places_partial",
    "Verif.Search.C44_once",
    "Verif.Search.C44_refines_partial",
    "Verif.Search.C44_main_partial",
    "Verif.Search.C44_file",
    "Verif.Search.C44_file_root",
    "Verif.Search.C44_package",
    "Verif.Search.C44_own_classes",
    "Verif.Search.C44_core_classes",
    "Verif.Search.C44_script",
    "Verif.Search.C44_lookup",
    "Verif.Search.C44_main_lookup_partial",
    "Verif.Search.C44_violated_main",
    "Verif.Search.C44_violated_later",
    "Verif.Search.C44_violated_zip",
    "Verif.Search.C44_violated_spec",
    "Verif.Search.C44_violated_tables"
   ],
   "note": "Order of places, at most one run and registration per process, agreement with the tables of the main model. Missing: main scripts after the first lookup (C44_violated_later: every script), zip files, modules without spec and loader modules without tables (violated)."
  },
  {
   "property": "C45",
   "status": "partial",
   "theorems": [
    "Verif.C45_rest",
    "Verif.C45_preserved",
    "Verif.C45_usable_partial",
    "Verif.C45_violated",
    "Verif.C45_violated_exit",
    "Verif.C45_violated_self"
   ],
   "note": "Exceptions at every step, any number of times, any history: what was there is unchanged and still loads (full). The open file stays usable if exceptions come from h5py; violated for exceptions between statements (C45_violated). create_dataset is two steps (a dataset may be left without its data), every other h5py call is one."
  },
  {
   "property": "C46",
   "status": "partial",
   "theorems": [
    "Verif.C46_partial",
    "Verif.C46_all_partial",
    "Verif.C46_end",
    "Verif.C46_alone",
    "Verif.C46_violated",
    "Verif.C46_violated_pickle",
    "Verif.C46_violated_load"
   ],
   "note": "Any number of threads, any schedule of single steps, each thread with its own file: every dump ends as alone with the same file, and under every fair schedule all end, if the loaders needed are registered before. Violated while loaders are being registered: a bool labelled int, lists pickled, load returning a substitute. Threads that load: C49."
  },
  {
   "property": "C47",
   "status": "partial",
   "theorems": [
    "Verif.V4.C47_partial",
    "Verif.V4.C47_violated_none",
    "Verif.V4.C47_violated_empty_string",
    "Verif.V4.C47_violated_characters",
    "Verif.V4.C47_violated_bytes_key",
    "Verif.V4.C47_violated_escape_key",
    "Verif.V4.C47_violated_false_key"
   ],
   "note": "All nestings of the objects in Clean, any listing order (by name for masked arrays as dict values). Violated for None, one-character strings beside an empty one, arrays of single characters, keys that are bytes, False or need an escape. What 4.0 wrote is a relation taken from the sample file and the readers, since its source is not in the repository."
  },
  {
   "property": "C48",
   "status": "partial",
   "theorems": [
    "Verif.C48_value",
    "Verif.C48_errors",
    "Verif.C48_file_partial",
    "Verif.C48_again",
    "Verif.C48_usable_partial",
    "Verif.C48_violated"
   ],
   "note": "Exceptions at every step, any file content: a load that returns returns what the undisturbed load returns (full); the file is unchanged up to C30's empty types table; after any interrupted loads a dumped object still loads (full); the open file stays usable if exceptions come from h5py, violated for exceptions between statements (C48_violated). KeyErrors that h5py's own get turns into a default are not events."
  },
  {
   "property": "C49",
   "status": "partial",
   "theorems": [
    "Verif.C49_partial",
    "Verif.C49_all_partial",
    "Verif.C49_value_partial",
    "Verif.C49_own_partial",
    "Verif.C49_own_all_partial",
    "Verif.C49_violated_shared"
   ],
   "note": "Any number of threads that load or dump, any schedule of single steps, each with its own file: every load and dump ends as alone, fair schedules end, and a value dumped before is read back as a copy, if the loaders of the classes in the files are registered before; they are for every file the process has made itself, whatever else it has done (C49_own_partial). Missing: loaders registered meanwhile (violated, C46_violated, C46_violated_load); threads sharing an open file fail (C49_violated_shared)."
  },
  {
   "property": "C50",
   "status": "partial",
   "theorems": [
    "Verif.C50_partial",
    "Verif.C50_files",
    "Verif.C50_violated"
   ],
   "note": "For files only hickle has written to (any dumps and loads of any processes, failed ones included) without further condition on the content, C50_files. For any file content (damaged data included), and any two histories of calls: the same outcome of load and the same file, if the types in the file fit the classes as they are now and no object was stored with the option for version 4.0 loaders. Violated when a class has changed its base classes since (C50_violated)."
  },
  {
   "property": "C51",
   "status": "partial",
   "theorems": [
    "Verif.Np.C51_dtype_partial",
    "Verif.Np.C51_distinct",
    "Verif.Np.C51_array_partial",
    "Verif.Np.C51_scalar",
    "Verif.Np.C51_branches",
    "Verif.Np.C51_refused",
    "Verif.Np.C51_violated_dtype",
    "Verif.Np.C51_violated_array"
   ],
   "note": "All dtypes without inner structure, and arrays and numbers of those h5py can store: dtype, byte order, shape and bits come back. Violated for every structured dtype and subarray, and every array of structures: the fields are lost. Arrays of times are refused. Strings and objects are C33."
  },
  {
   "property": "C52",
   "status": "partial",
   "theorems": [
    "Verif.Warnings.C52_dump",
    "Verif.Warnings.C52_dump_failed",
    "Verif.Warnings.C52_load_partial",
    "Verif.Warnings.C52_silent_partial",
    "Verif.Warnings.C52_text_partial",
    "Verif.Warnings.C52_violated_pickle",
    "Verif.Warnings.C52_violated_name"
   ],
   "note": "dump: one warning for each object stored as a pickle string, with its class, in order, and no others (proved in full). load: as many warnings as substitutes, so none without a warning, if the classes of pickled objects are there; every warning gives the name of a node, and for a dataset the loader its entry in the types table names. Violated: a pickled object of a missing class is replaced without a warning; the warning for a group names no loader."
  },
  {
   "property": "C53",
   "status": "partial",
   "theorems": [
    "Verif.C53_partial",
    "Verif.C53_violated"
   ],
   "note": "The limit of the dump times one more than the number of node references on any way through the file is enough for load; without objects stored by reference the limit itself is. Violated in general: lists that refer to one another are written by three nested calls and not read with fifteen."
  },
  {
   "property": "C54",
   "status": "partial",
   "theorems": [
    "Verif.Custom.C54_partial",
    "Verif.Custom.C54_fitting_partial",
    "Verif.Custom.C54_violated_base",
    "Verif.Custom.C54_violated_attr"
   ],
   "note": "Proved for loaders with different base types (C54_fitting_partial: also for loaders that restore only some of the objects they store, for graphs of these) whose attributes for nodes and for sub items have different names. Both conditions are needed: register_class accepts a base type in use and then loads objects of the first class with the loader of the second; attributes given to sub items are written over attributes the sub item has set itself. Graphs with cycles: see C03."
  },
  {
   "property": "C55",
   "status": "partial",
   "theorems": [
    "Verif.Custom.C55_partial",
    "Verif.Custom.C55_violated"
   ],
   "note": "Classes, content and order survive inside and outside of pickle strings, and objects outside of them stay shared. Objects shared across the border of a pickle string are duplicated (C55_violated)."
  },
  {
   "property": "C56",
   "status": "partial",
   "theorems": [
    "Verif.Custom.C56_dump_partial",
    "Verif.Custom.C56_load_partial",
    "Verif.Custom.C56_violated"
   ],
   "note": "Nodes written are at most one more than the sub items of all objects, each object counted once; load makes no node into an object twice and calls _load at most once for each node and once more for each reference. Classes with sub items registered with memoise=False are written once for each path (C56_violated)."
  },
  {
   "property": "C57",
   "status": "partial",
   "theorems": [
    "Verif.C57_partial",
    "Verif.C57_failed_partial",
    "Verif.Part.atom",
    "Verif.Part.strings",
    "Verif.C57_unmodelled",
    "Verif.C57.interrupted",
    "Verif.C57.interrupted_key",
    "Verif.C57.violated_key"
   ],
   "note": "For every dump of a supported object graph to a free path, ended in any way at any step, every load from there that returns gives a part of the object (Part, PartSpec.lean). Missing: loads whose outcome the model does not tell, namely when an untyped dataset of user data is given to pickle.loads (C57_unmodelled); identity of objects referred to twice in what is left."
  },
  {
   "property": "C58",
   "status": "partial",
   "theorems": [
    "Verif.C58_partial",
    "Verif.C58_truncated",
    "Verif.C58_violated",
    "Verif.C58_violated_inside"
   ],
   "note": "Holds for failing calls that do not open the file with a mode that discards it and whose path does not lead into the nodes of the earlier dump. Violated otherwise: the default mode w empties the file before the object is looked at, so a refused object costs the old one (C58_violated; C58_truncated shows that this is so for every content); a refused dump to the node of an empty dict spoils the dict (C58_violated_inside)."
  },
  {
   "property": "C59",
   "status": "partial",
   "theorems": [
    "Verif.C59_partial",
    "Verif.C59_sharing",
    "Verif.C59_violated"
   ],
   "note": "Equal outcomes and equal files for isomorphic graphs and any two histories of the processes. Missing: loader modules that register classes of other packages, as in C43. Violated for equal sets enumerated in different orders (C59_violated). C59_sharing: sharing of strings shows in the file, so the condition on sharing is needed."
  },
  {
   "property": "C60",
   "status": "partial",
   "theorems": [
    "Verif.C60_partial",
    "Verif.C60_again_partial",
    "Verif.C60_violated_false",
    "Verif.C60_violated_set"
   ],
   "note": "Proved for all object graphs of C01 without sets of more than one element, for any second call, whatever its options. Sets are enumerated in an order that the model leaves open, and the file shows it (C60_violated_set); the key False comes back as True (C60_violated_false)."
  },
  {
   "property": "C61",
   "status": "proved",
   "theorems": [
    "Verif.C61_readable"
   ],
   "note": "For every part that is not stored by pickle (and not an array of objects without dimensions). The type of the array for a list of mixed numbers is the subject of C10. C61_readable needs that no class used for dict keys is called like a built-in key class."
  },
  {
   "property": "C62",
   "status": "partial",
   "theorems": [
    "Verif.Astro.C62_accepted",
    "Verif.Astro.C62_exact",
    "Verif.Astro.C62_partial",
    "Verif.Astro.C62_violated_unit",
    "Verif.Astro.C62_violated_mask",
    "Verif.Astro.C62_refused"
   ],
   "note": "C62_accepted and C62_exact say for every table whether dump accepts it and what load then returns: the columns with names, order and values. Units, descriptions and masks are lost (C62_violated_unit, C62_violated_mask for every such table); columns of text are refused."
  },
  {
   "property": "C63",
   "status": "partial",
   "theorems": [
    "Verif.V3.C63_partial",
    "Verif.V3.C63_violated_group",
    "Verif.V3.C63_violated_object"
   ],
   "note": "C63_partial: names, pathlib.Path and h5py.File. For groups and file objects, alone or in tuples, lists and dicts, load raises ValueError, because the code of version 3 gets the argument of the caller and has an opener of its own (the two C63_violated theorems, for every such argument)."
  },
  {
   "property": "C64",
   "status": "partial",
   "theorems": [
    "Verif.V3.C64_partial",
    "Verif.V3.C64_violated"
   ],
   "note": "C64_partial: files without pickle strings give data only, whatever else is in them. With pickle strings safe=True has no effect: C64_violated, for every object version 3 has pickled."
  },
  {
   "property": "C65",
   "status": "partial",
   "theorems": [
    "Verif.C65_partial",
    "Verif.C65_only",
    "Verif.C65_violated_subclass",
    "Verif.C65_violated_matrix",
    "Verif.C65_violated_lost",
    "Verif.C65_violated_strings",
    "Verif.C65_violated_objects"
   ],
   "note": "Holds for numpy.ndarray and matrices of numbers (C65_partial). C65_only: whatever is in the file, load makes no other arrays, so classes derived from numpy.ndarray and matrices of strings or objects never come back."
  },
  {
   "property": "C66",
   "status": "partial",
   "theorems": [
    "Verif.C66_partial",
    "Verif.C66_recovered",
    "Verif.C66_violated_missing",
    "Verif.C66_violated",
    "Verif.C66_violated_order",
    "Verif.C66_violated_file"
   ],
   "note": "Holds when every object of the file could be restored (C66_partial). C66_recovered: dump never returns for an object that holds recovered data at any depth of lists, tuples and dicts, hence for what is loaded of any file with an instance of a missing class there (C66_violated_missing); C66_violated_file: dump(load(f), f) then loses the data in f."
  },
  {
   "property": "C67",
   "status": "proved",
   "theorems": [
    "Verif.C67_place",
    "Verif.C67_moved",
    "Verif.C67_move",
    "Verif.C67_links",
    "Verif.C67_others_move",
    "Verif.C67_others_unlink",
    "Verif.C67_data_alone"
   ],
   "note": "C67_place: any content, same outcome; C67_moved: dumped objects in edited files; C67_move: moving the group or one above it with h5py; C67_others_move and C67_others_unlink: other objects are not affected. C67_data_alone: moving only the member data is not enough. Copies of groups made by h5py (which have other nodes) are not covered."
  },
  {
   "property": "C68",
   "status": "partial",
   "theorems": [
    "Verif.C68_dump",
    "Verif.C68_load_partial",
    "Verif.C68_load_reading_partial",
    "Verif.C68_round_trip",
    "Verif.C68_modes",
    "Verif.C68_violated"
   ],
   "note": "dump and the round trip in full; load in full for two ways that are both open for writing or both not. Otherwise, where there is a types table, two ways never return different objects, but the one that is open for writing can fail: it reads all entries of the table (C68_violated, a file with a damaged table). Mode w discards a file given by name and keeps one that is open (C68_modes), as documented. What HDF5 says about files that are open twice is not modelled."
  }
 ]
}