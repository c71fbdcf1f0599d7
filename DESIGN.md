# A formal model of hickle 5 in Lean 4

This document says what is modelled, how, and how each property of
`properties.jsonl` is to be proved. Section 5 records where the code does not
have the property its users rely on. Section 6 is the trusted base.

## 1. Shape of the model

The model is a shallow embedding: every modelled Python function is a total,
computable Lean function with the same branches in the same order. Exceptions
are values (`PyErr`). A computation that changes state has type
`sigma -> Except PyErr alpha * sigma`, so the state reached when an exception
is raised (a half-written file) is part of the result. Python's recursion
limit is a `fuel` argument: running out of it is `RecursionError`, a value like
any other exception. Theorems quantify over all fuels.

| Layer | Lean modules | Models |
|---|---|---|
| Python values | `Verif/Py/*` | code-point strings, UTF-8, decimal integers, binary64 numbers, exceptions, the object heap, classes and their method resolution order |
| HDF5 store | `Verif/H5/*` | what h5py is used for: groups, links, datasets, attributes, object references, filter keywords refused on scalar/empty datasets |
| hickle | `Verif/Hickle/*` | `hickle.py`, `helpers.py`, `fileio.py`, `lookup.py`, `loaders/load_builtins.py`, parts of `load_numpy.py`, `load_scipy.py`, `load_astropy.py`, `legacy_v3/*` |
| Specifications | `Verif/Hickle/Spec.lean`, `Verif/Props/Basic.lean`, `Verif/Props/Same.lean`, the heads of `Verif/Props/C*.lean` | small definitions that do not mention dump or load: what a copy of an object is, which object graphs are considered, what is recovered of instances of missing classes, paths through an object |
| Properties | `Verif/Props/*` | one theorem (or a few) per property, with non-vacuity examples beside each |

### Python objects
A heap is a list of objects, an address is an index. Objects carry a class and
a value: `None`, bool, int (unbounded), float (binary64 datum), complex, str
(list of code points, surrogates allowed), bytes, list/tuple, set, dict, numpy
scalar, numpy array, opaque (any other object; it has a pickle or not).
Graphs may be cyclic and shared.

### HDF5
A store is a list of nodes. A group has an ordered list of links (name, node);
a dataset has typed content; both have attributes. References are node ids.
Creation refuses names that exist. Filter keywords on scalar or empty datasets
are refused with `TypeError` as h5py does. Load visits the members of a group in
an arbitrary order: theorems quantify over all orders.

### What is abstract
* `pickle`: `loads (dumps x)` is a faithful copy of an opaque object or of a
  class reference; an opaque object that is not picklable makes `dumps` raise.
* float `repr` and `float()`: a parameter with the law `float(repr(x)) = x`,
  and that a repr never contains `/`, `"` at the start, etc.
* numpy's `result_type` on the dtypes of Python scalars: modelled as the join in
  bool < int64 < uint64?/float64 < complex128 (uint64 mixes go to float64).
* HDF5's own storage of typed data is the identity.

## 2. Plan per property

| Id | Modelled | Proof |
|---|---|---|
| C01 | `_dump`, `_load`, builtins loaders, memo, types table | simulation: dump establishes "node n shallowly represents object a" for every memoised object (store extension + frame); load by well-founded induction on the graph yields a bisimulation between source and loaded heap |
| C02 | same | the bisimulation is functional and injective on identity-carrying objects |
| C03 | same | for acyclic graphs: C01; for cyclic: no fuel makes load succeed (load ok implies accessibility) - negation |
| C04 | link order is a parameter of load | C01 for all orders; uniqueness up to isomorphism |
| C05 | `create_scalar_dataset`/`load_scalar_dataset` int branch | digit induction |
| C06 | own UTF-8 encoder/decoder | case analysis on the four length classes |
| C07 | `create_dictlike_dataset` names | prefix analysis, injectivity of repr |
| C08 | `DictLikeContainer.append` | per key type; negation for `False` |
| C09 | `ListLikeContainer` | insertion at parsed index from any permutation |
| C10 | `check_iterable_item_type`, cast | for every list or tuple: exactly which numbers keep their value and what the others become (the nearest float, `F64.ofInt_nearest`); sets when ints beside floats are representable; negation witness |
| C11 | C01 plus numpy scalars | representation of loaded objects is a fixpoint |
| C12 | class of the object is a parameter | negations with witnesses; partial for subclasses whose constructor is faithful |
| C13 | `create_pickled_dataset`, `load_loader` fallback | case analysis |
| C14, C15, C16 | top level `dump`, `load` on a store | frame theorem for histories; negation for C16 |
| C17 | manager tables as a state machine | invariant over event histories; negation for the overlay case |
| C18, C19 | file handle life cycle around dump/load with failures as parameters | case analysis over all outcome scripts |
| C20 | `file_opener`, `not_io_base_like` | decision logic |
| C21, C22 | `load` dispatch | decision logic |
| C23 | `no_compression` and each creating branch | per branch; negation for 0-d arrays |
| C24 | option attributes | round trip through upper/lower, regex |
| C25, C26 | registry tables | invariant over registration histories |
| C27 | types table | invariant over `store_type` histories |
| C28 | recovery containers | content preservation |
| C29 | references with deleted targets | case analysis |
| C30 | top level load on a store | frame; negation for table-less file opened r+ |
| C31 | ChainMap proxy | refinement to overlay map |
| C32 | `sort_keys` | sortedness + permutation |
| C33 | `tolist`, object array shapes | structural induction; negation |
| C34 | sparse/masked containers | permutation independence |
| C35 | address reuse model | invariant over alloc/free histories |
| C36 | `ListLikeContainer` on corrupt input | negation + partial |
| C37 | `_dump` | measure: unvisited memoisable objects |
| C38 | table metadata attributes | negation + partial |
| C39 | files by name, modes, histories over several files | refinement of the file argument model to sessions; induction over histories |
| C40 | totality of dump on a domain described without reference to dump | induction over the recursion depth with the dump invariant; names of sub items are good and different |
| C41 | writer and reader of version 3 (`LegacyV3.lean`), texts of keys (`Py/Repr.lean`, `repr` and `ast.literal_eval`) | induction over the value (`Clean`), literals by induction over the text |
| C42 | `AstroTypes.lean`: how the five astropy types are stored and read, the library (units, time formats, h5py's attributes) as parameters | lists: stack and unstack, ASCII, rounding of integers; in graphs of objects (`Props/C42Graph.lean`) as an instance of C54 |
| C43 | two sessions that differ in the loader registry only | relational Hoare logic (`Two` in `DumpTwins.lean`) over the whole dump, with the registry invariant on both sides |
| C44 | `LoaderSearch.lean`: `load_loader` with `sys.modules`, the import system and the files as parameters | list of places as specification, written out as paths in `C44Paths.lean`; invariant over the life of a process; refinement to the registry of the main model |
| C45 | `Steps.lean`, `StepDump.lean`: `dump` in single steps, each hit by an exception before or after it takes effect (h5py calls only, or every step) | weakest preconditions over all event lists; without events equal to `dump` of the main model (`dumpF_nil`); induction over histories |
| C46 | `Threads.lean`: the steps of `StepDump.lean` for several threads that share the loader tables; `load_loader` and registration split into single table operations | invariant of the shared tables between any two steps (`Shared`), simulation of each thread by the dump alone for every registry put in between (`Par`, `Sim`); well-founded induction over threads for termination |
| C47 | `LegacyV4.lean`: `_load` on files of version 4.0 (`load_hickle_4_x_string`, the 4.0 masked reader, sparse matrices, dict items, the lambda repair); what is in such a file is the relation `Puts` (`V4Spec.lean`), as the source of 4.0 is not in the repository | induction over `Puts` (`V4Main.lean`), for every order in which h5py lists members |
| C48 | `StepLoad.lean`: `load` in single steps, hit by exceptions as in C45 | `Strict` programs, in which an exception at any step ends the program with an exception, by induction over the steps; weakest preconditions for the file and the managers; without events equal to `load` of the main model (`loadF_nil`) |
| C49 | `ThreadsLoad.lean`: the steps of `StepLoad.lean` as threads beside those of C46 | as C46: simulation of each load by the load alone for every registry put in between; the invariant of the shared tables covers the load functions and container classes of registered base types. For files of the process itself the loaders are there: invariant of all calls (`Fitting.lean`), and no call forgets a loader (`Grows.lean`) |
| C50 | `load` of the main model in two processes whose registries differ | two runs in lockstep (`Two`, `LoadBlind.lean`, `LoadTwins.lean`): what does not ask the registry does the same; what asks it gets the same answer when the types fit the classes; that they fit is an invariant of every step of `dump`, failed ones included (`Fitting.lean`) |
| C51 | `Hickle/NpTypes.lean`: all numpy dtypes, `dtype.str` and `np.dtype(bytes)` character by character, the dtype, array and scalar functions of `load_numpy.py`; items as bytes | reading inverts printing, by cases on the dtype and the lemmas on decimal numbers; no name of another dtype contains `str` |
| C52 | `Hickle/Warnings.lean`: dump and load once more with a log of the calls of `warnings.warn`, proved to do what the main model does | dump: classes of the pickle strings in the file and classes in the log grow together; load: warnings minus substitutes is the same before and after every part, by induction on the depth |
| C53 | the depth of nested calls that the main models of dump and load are given | `Depth.lean`: what a dump that nested `n` deep writes has no path of more than `n` members; load gives the same answer for all depths above the longest way through members and references |
| C54 | `Hickle/Custom.lean`: `_dump`, `_load`, `register_class` and `load_loader` once more with the classes, dump functions and containers as parameters | the contract of one loader (`LoaderOk`) mentions no other; dump leaves each object of the graph once in the file, with what its dump function made of it (`CustomDump.lean`, invariant with the nodes still being written); load by induction on the nesting of sub items (`CustomLoad.lean`) |
| C55 | the driver of C54; pickle is a parameter that makes a new object for every object that can be reached (`Pickles`) | a pickled object satisfies the contract of a loader as long as no object inside of its pickle string needs to be shared; then as C54 |
| C56 | the driver of C54 with counters for the calls of `_load` and the nodes made into objects (`Hickle/CustomWork.lean`) | the counters change nothing (`loadW_forget`); no node is made twice by induction on the nesting of sub items, with the groups being loaded in the invariant; each call is charged to the member or reference it starts from; nodes of a dump are charged to the objects remembered |
| C57 | the stepwise `dump` of C45 (`Hickle/PartDump.lean`, `PartTop.lean`) and the `load` of the main model on what it leaves (`PartLoad.lean`, `PartCall.lean`); the specification `Part` is in `PartSpec.lean` | weakest preconditions over all event lists for an invariant of unfinished dumps: every node made so far is typed with a subset of its members, untyped, or a reference; then induction on the recursion of load, with the relation between loaded and dumped objects in the invariant |
| C58 | the calls on files by name of C39 (`Hickle/World.lean`): any history, then a call of `dump` that raises, with any faults | `C39_history` with the failing call at its end, since the invariant of C39 does not ask whether calls return; for mode `w` the content after the failure is computed to be independent of the old content (`C58_truncated`) |
| C59 | `dump` on two object graphs (`Hickle/Alike.lean`, `Hickle/AlikeDump.lean`) | the two runs are compared step by step; the relation between the objects grows with the temporary objects, and the tables of dumped objects correspond under it; with C43 for the histories of the two processes |
| C60 | `dump`, `load`, `dump` | the copy that C01 gives is shown to correspond to the original in the sense of C59, with one addition: numbers of a list need only be the same after conversion to their common type |
| C61 | what another HDF5 program sees: members of groups by name, the numbers and texts of datasets, object references; no attributes, no types table | the invariant of a finished dump (every object has one node, with the data and members its type demands) is read off along any path of part names, by induction on the path; cyclic graphs included |
| C62 | `Hickle/AstroTable.lean`: the structured array of all columns of a table and what is made of it | induction on the columns; negation for units and masks |
| C63 | `Hickle/LegacyFile.lean`: the opener of version 3 behind that of `load` | the two openers agree on names, paths and `h5py.File`, then C41; negation for groups and file objects |
| C64 | the reader of version 3 with its argument `safe` | induction on the recursion of the reader: no pickle string in the file, no object of another class in the value; negation for every pickled object |
| C65 | `Hickle/LoadMade.lean`: what kind of objects load makes | invariant of load over every file content; negations for all subclasses and matrices |
| C66 | `Hickle/Salvage.lean`: what a returning dump has met | C60 for the positive part; for the negative part an invariant of `_dump` over the memo: everything lists, tuples and dicts hold has been stored |
| C67 | `Hickle/Moved.lean`: two files that agree on what can be reached from a group; `Store.move` (h5py's `move`) in `Props/C67.lean` | load run on both files step by step; for dumped objects: everything reached was written by the dump (`StoredAt.seen`), and paths in a tree of links are unique |
| C68 | `Hickle/FileIO.lean`, `Hickle/World.lean`; `Hickle/LoadCache.lean`: what a load remembers of the types table | `GivenAs` lists the documented ways to give a file and a path; each is reduced to the same call on the content of the file; open for writing or not: two runs of load that remember different entries |

## 3. Simplifications
Each definition's comment says where it simplifies. The ones that matter for
reading the theorems:

* One address per object, never reused, for the main model of dump
  (`Hickle/Dump.lean`). `Hickle/Memory.lean` models dump a second time with
  `id()` values that are reused as CPython may reuse them; C35 proves that both
  give the same file.
* Of numpy's dtypes the main model has only bool, int64, float64, complex128,
  `<U` strings and `object`. `Hickle/NpTypes.lean` models all of them, without
  metadata and `align`, for the functions of `load_numpy.py` alone, assuming
  that HDF5 keeps dtype, shape and bytes of a dataset.
* Floats are `nan`, infinities, and `m * 2^e` with a sign (`Py/F64.lean`);
  conversion int -> float rounds to nearest, ties to even.
* Constructors of user classes are arbitrary functions `CtorArg -> Except PyErr Val`.
* `pickle` is an abstract faithful copy (see section 1).
* Loader modules of third party packages are arbitrary lists of registrations.
* Text written by hand by other programs into the file is covered in C21, C22,
  C29, C30, C36 (any file content); the other theorems are about files with any
  history of hickle calls (`FileOk`), starting from any tree of groups and
  datasets.

## 4. Status
See `MANIFEST.json`. `seeded/LOG.jsonl` lists the wrong programs the theorems
were tested against.

## 5. Where the code violates a property
Each is a theorem with a concrete witness (or, for C03, C18, C19, C20 and C32,
for a whole class of inputs) about the model. The part that does hold is proved
beside it.

| Property | What happens | Theorem |
|---|---|---|
| C03 | an object that contains itself is dumped without complaint; no load of it ever returns | `C03_violated` |
| C08 | the dict key `False` is loaded as `True`; a numpy number as key of a number changes its type | `C08_violated_false`, `C08_violated_falses` (for every dict with that key), `C08_violated_numpy` |
| C10 | `[2**53 + 1, 0.5]` is loaded as `[2**53, 0.5]`; a set of such numbers loses elements | `C10_violated_list`, `C10_violated_set` |
| C12 | a `str` subclass instance gets the text of an array as its value; `defaultdict` and named tuples are dumped and can not be loaded; nor can a dict with an instance of a `str` subclass, such as `numpy.str_`, as key | `C12_violated_str`, `C12_violated_strs` (for every subclass), `C12_violated_defaultdict`, `C12_violated_namedtuple`, `C12_violated_key`, `C12_violated_keys` (for every such key) |
| C16 | after a dump that raised, load returns a wrong list or dict | `C16_violated`, `C16_violated_dict` |
| C17 | the entry of a manager stays behind when the types table lives in an overlay; the finalizer of an old manager drops the entry of a new one | `C17_violated_overlay`, `C17_violated_collected` |
| C18 | when flushing raises, the file hickle opened stays open | `C18_violated_flush`, `C18_violated_always` (every such call) |
| C19 | garbage collection is enabled by every call, also if it was disabled before; it stays disabled when closing raises | `C19_violated_enabled`, `C19_violated_disabled` |
| C20 | documented modes `w+`, `x+` are refused for file names; `br` is accepted for names only | `C20_violated_mode`, `C20_violated_b` |
| C23 | 0-d arrays can not be dumped with `compression` | `C23_violated` |
| C24 | the unknown option of a refused dump is left on the group; later dumps to the group can not be loaded | `C24_violated`, `C24_violated_ever` (every such option) |
| C25 | the loader names `!node-reference!` and `!recover!` can be excluded | `C25_violated` |
| C26 | with a loader module that registers a class of another package, the first lookup differs from later ones | `C26_violated` |
| C27 | the types table keeps the loader name of the first object of a class when the loader changes | `C27_violated` |
| C28 | an empty list of a missing class, and instances of missing classes in sets and keys, make load raise; a recovered pickle has no loader name | `C28_violated_empty`, `C28_violated_set`, `C28_violated_key`, `C28_violated_name` |
| C30 | loading from a writable file can add an empty types table | `C30_violated` |
| C32 | version 3 groups with a member without number are read in text order; names outside ASCII raise | `V3.C32_violated_mixed`, `V3.C32_violated_ascii` |
| C33 | empty string arrays, arrays of lists, object arrays of numbers | `C33_violated_*` (seven) |
| C36 | a missing item of a list is loaded as `()`; of two members at one position the first is dropped if it is `()` | `C36_violated_missing`, `C36_violated_repeated` |
| C38 | table metadata called `type`, `base_type`, `colnames` or like an attribute of the container, and byte strings; every table in a list or dict gets the attributes of its place (`item_index`, `key_idx`, `key_base_type`) as metadata | `Astro.C38_violated*` |
| C40 | ints beyond 64 bits among numbers, two NaN keys, ragged nesting behind a number are refused | `C40_violated_int`, `C40_violated_nan`, `C40_violated_ragged` |
| C41 | strings read with h5py 3, trailing NULs, byte strings in lists that are not UTF-8, lists mixing int64 and uint64 | `V3.C41_violated_str`, `V3.C41_violated_nul`, `V3.C41_violated_bytes`, `V3.C41_violated_uint` |
| C41 | keys `False`, `None`, byte strings, with `/`, not ASCII, tuples with `inf` | `V3.C41_violated_false`, `V3.C41_violated_lost`, `V3.C41_violated_none`, `V3.C41_violated_byteskey`, `V3.C41_violated_slash`, `V3.C41_violated_ascii`, `V3.C41_violated_inf` |
| C41 | frozensets of mixed types, masked arrays in lists, an object at `/` beside one at `/a` | `V3.C41_violated_frozenset`, `V3.C41_violated_masked`, `V3.C41_violated_root` |
| C42 | imaginary parts, integers beyond 2^53, frames, distances, times beyond float precision, location and precision of times are lost; times as `datetime` and scalar text times with compression are refused; constants have `bytes` with h5py 2 | `Astro.C42_violated_*` (eight) |
| C43 | a loader module with a loader for a class of another package makes the first dump of an object differ from the second | `C43_violated` |
| C44 | the second lookup for a class of the main script looks for `load___main__.py` instead of `load_<script>.py`, so a loader module that fails on the first dump is silently ignored on the second; packages in zip files, modules without `__spec__` and loader modules without `class_register` make dump raise | `Search.C44_violated_main`, `Search.C44_violated_later` (every script), `Search.C44_violated_zip`, `Search.C44_violated_spec`, `Search.C44_violated_tables` |
| C45 | an exception between the entry of a manager and its `with` block, or within `__exit__`, leaves the entry behind: all further dumps into the open file raise `LookupError`; what an interrupted dump has written loads as a wrong object | `C45_violated`, `C45_violated_exit`, `C45_violated_self` |
| C46 | the loader tables are filled without a lock: a thread that finds no loader and then sees the module marked as loaded by another thread uses the loader of a base class or pickles; during registration `load` in another thread returns a substitute for a list | `C46_violated`, `C46_violated_pickle`, `C46_violated_load` |
| C47 | from files of version 4.0: `None` comes back as a substitute (its class was pickled by dill as `__builtin__.NoneType`); `('a', '')` as `('a', '\0')`; `numpy.array(['a', 'b'])` as the 0-d array `'a'`; the keys `b'x'`, `'a\nb'`, `False` as `"'x"`, `'a/nb'`, `True` | `V4.C47_violated_none`, `V4.C47_violated_empty_string`, `V4.C47_violated_characters`, `V4.C47_violated_bytes_key`, `V4.C47_violated_escape_key`, `V4.C47_violated_false_key` |
| C48 | an exception between the entry of a manager and its `with` block, or within `__exit__`, during a load leaves the entry behind: all further loads from the open file raise `ValueError`, dumps raise `LookupError` | `C48_violated` |
| C49 | as C46 (`C46_violated_load`); threads that load from the same open file fail with `ValueError` while another one is at work | `C49_violated_shared` |
| C50 | if a class was derived from an array when the file was written and no longer is, `load` returns a substitute in a new process and an array in a process that has used arrays with hickle before | `C50_violated` |
| C51 | structured dtypes and subarrays load as plain bytes (`\|V12`) without fields; arrays of structures come back with the bytes of their items but no fields | `C51_violated_dtype`, `C51_violated_array` |
| C51 | arrays of dates or time spans are refused with a TypeError | `C51_refused` |
| C52 | an object stored as a pickle string whose class is missing comes back as raw data without any warning | `C52_violated_pickle` |
| C52 | the warning for a group of a missing class says that a loader `!recover!` is missing rather than the one in the file | `C52_violated_name` |
| C53 | lists in a list that hold the ones before are written by three nested calls of `_dump`; `load` visits them by name and nests more the more there are | `C53_violated` |
| C54 | `register_class` accepts a base type that is in use; objects of the first class are then loaded by the loader of the second | `C54_violated_base` |
| C54 | the attributes a dump function gives to its sub items (`item_index`, `key_idx`, ...) are written over those the dump function of the sub item has set | `C54_violated_attr` |
| C55 | an object that is referred to from an object stored as a pickle string and from outside of it is two objects after load | `C55_violated` |
| C56 | `n + 1` objects of a class registered with `memoise = False` that each refer twice to the next are written as `2 ^ (n + 1) - 1` nodes | `C56_violated` |
| C57 | a dump of `bytes` that is interrupted before the type is stored leaves an untyped dataset; load gives its content to `pickle.loads` (outside the model); an interrupted dump of `{('k',): 'k'}` loads as `{((),): ()}` | `C57_unmodelled`, `C57.violated_key` |
| C58 | `dump(x, 'd.h5')`, then `dump(y, 'd.h5')` with the default mode, and pickle refuses `y`: `x` is lost, load returns `['a', ()]`; an empty dict in the file and a refused dump to its node `/data` with mode `a`: the dict cannot be loaded any more | `C58_violated`, `C58_violated_inside` |
| C59 | equal sets that are enumerated in different orders give different files | `C59_violated` |
| C60 | `{False: None}` loads as `{True: None}`, which gives another file; a loaded set enumerated in another order gives another file | `C60_violated_false`, `C60_violated_set` |
| C62 | units, descriptions and masks of the columns of a table are lost; tables with a column of text are refused | `Astro.C62_violated_unit`, `Astro.C62_violated_mask`, `Astro.C62_refused` |
| C63 | `load` of a file of hickle 3 given as an `h5py.Group` or as a file object raises `ValueError` | `V3.C63_violated_group`, `V3.C63_violated_object` |
| C64 | `load` of a file of hickle 3 with `safe=True` unpickles objects of any class | `V3.C64_violated` |
| C65 | arrays of classes derived from `numpy.ndarray` load as `numpy.ndarray`, matrices of strings or objects as `RecoveredGroup` | `C65_violated_subclass`, `C65_violated_matrix`, `C65_violated_lost`, `C65_violated_strings`, `C65_violated_objects` |
| C66 | what load recovers of an object whose class is missing can not be dumped; `dump(load(f), f)` then raises and leaves a file without the object that loads without an error; whether a set can be dumped depends on the order in which it is enumerated | `C66_violated_order`, `C66_recovered`, `C66_violated_missing`, `C66_violated`, `C66_violated_file` |

Two properties hold only with a condition on the paths or objects that is
stated in the theorem and shown to be needed: C15 (`C15_beneath_data`,
`C15_beneath_table`: a dump below the data of another one damages it) and C37
(`C37_once` does not count the items of a 0-d object array that holds a list or
array: these are written into the node of the array; `C03_violated` has the
same hypothesis).

## 6. Trusted base
* Lean 4.33.0's kernel. `decide +kernel` is used for concrete examples and
  witnesses; it is checked by the kernel. No `native_decide`, no `bv_decide`.
* Axioms: every theorem of `MANIFEST.json` depends on at most `propext`,
  `Classical.choice` and `Quot.sound`. Mathlib is not imported.
* The reading of the Python source recorded in the comment of each definition.
* The behaviour of what hickle calls, as far as the model relies on it, also
  recorded there: h5py (group, dataset and attribute creation, which keywords
  are refused for which data, object references, file modes), numpy
  (`result_type`, `array`, `tolist`, indexing, `ndim` on nested sequences),
  pickle, `repr`/`float`/`int` of numbers, UTF-8, dict and set semantics.
* For C47: the layout of files of version 4.0, taken from
  `hickle/tests/legacy_hkls/hickle_4.0.0.hkl` and from the readers.

As a check of that reading, not as a property, `Props/RepoTests.lean`,
`Props/RepoTestsNumpy.lean`, `Props/RepoTestsFiles.lean` and
`Props/RepoTestsAstropy.lean` run the model in the kernel on the inputs of hickle's own tests (`test_hickle.py`,
`test_99_hickle_core.py`, `test_01_hickle_helpers.py` to `test_06_load_astropy.py`,
as far as they are within what is modelled) and compare the outcome with what
the tests assert: values, classes, layout of the file, contents of the types
table, exceptions.

Modelled:

| File in /repo/hickle | Functions |
|---|---|
| `hickle.py` | all: `_dump`, `dump`, `RootContainer`, `load`, `_load`; `dump` and `load` a second time in single steps (`StepDump.lean`, `StepLoad.lean`). `create_dataset` is two steps, so that a dataset can be left without its data; every other h5py call is one step (a `KeyError` that h5py's `get` turns into the default is not modelled); what a killed process leaves in the file system is HDF5's and not modelled. Threads (`Threads.lean`) that each have their own file; looking into the chain of tables and setting both keys of a base type are one step each; threads sharing a file are modelled only as far as `C49_violated_shared` shows that they fail |
| `fileio.py` | all: `not_io_base_like`, `file_opener` (the OS and h5py.File as a parameter) |
| `helpers.py` | `nobody_is_my_name`, `PyContainer`, `H5NodeFilterProxy`, `no_compression`, `not_dumpable` |
| `lookup.py` | `ManagerMeta`, `BaseManager`, `ReferenceManager`, `LoaderManager` (registration, exclusion, lookup; the search for loader modules in `LoaderSearch.lean`, with the import system and the files as parameters, and related to the table of the main model by `C44_refines_partial`), `ExpandReferenceContainer`, `create_pickled_dataset`, `load_pickled_data`, recovery classes; the warnings of dump and of recovery in `Warnings.lean`; `_moc_numpy_array_object_lambda` and `fix_lambda_obj_type` in `LegacyV4.lean`; registration with arbitrary loaders in `Custom.lean` |
| `loaders/load_builtins.py` | all; `load_hickle_4_x_string` in `LegacyV4.lean` |
| `loaders/load_numpy.py` | scalars, arrays (numeric, string, object), masked arrays; the reader of masked arrays of 4.0 in `LegacyV4.lean`; `np.dtype` objects and all dtypes in `NpTypes.lean` |
| `loaders/load_scipy.py` | all |
| `loaders/load_astropy.py` | tables' metadata (`Hickle/Astropy.lean`) and columns (`Hickle/AstroTable.lean`); quantities, angles, coordinates, times, constants (`Hickle/AstroTypes.lean`), in graphs of objects with the drivers of `Hickle/Custom.lean` (`Props/C42Graph.lean`) |
| `legacy_v3/*` | the decision to use it; `dump`, `load` and all they call for built-in types, numbers, numeric numpy arrays and scalars, masked arrays and sparse matrices; `file_opener` for reading (`Hickle/LegacyFile.lean`); not keyword arguments, `np.dtype`, astropy, Python 2 |
| `loaders/load_pandas.py` | registers nothing |
