{"id": "C01", "title": "Values survive dump followed by load", "statement": "If hickle.dump(obj, f) returns, then hickle.load(f) returns and the result is structurally equal to obj: same container types, same lengths, same order, same strings, bytes, None, bools and numbers (a number stored directly in an all-numeric list, tuple or set may come back as the numpy scalar of the same value). Applies to obj built from None, bool, int, float, complex, str, bytes, list, tuple, set, dict and picklable opaque objects, acyclic, with no False dict key and with every all-numeric sequence exactly representable in its common dtype.", "quantifier": "every acyclic object graph over the listed types, of any size, nesting depth, width and sharing pattern; every HDF5 link iteration order; every set of compression keywords", "why_tests_cant": "Tests sample a few nested literals; the claim ranges over all graphs, all depths and all sharing patterns, and the load order of HDF5 links (data0, data1, data10, data2...) differs from dump order in ways small samples never reach.", "anchors": ["hickle/hickle.py:_dump", "hickle/hickle.py:_load", "hickle/loaders/load_builtins.py", "hickle/lookup.py:ReferenceManager"]}
{"id": "C02", "title": "Sharing is preserved: one object stays one object", "statement": "If the same list, tuple, dict, set or pickled object is reachable from obj along several paths, then in the object returned by load the corresponding paths lead to one and the same object; and two distinct objects never become one.", "quantifier": "every acyclic object graph, every pair of paths in it, every HDF5 link iteration order", "why_tests_cant": "The identity relation over all pairs of paths of all graphs cannot be enumerated; a reference may be met before the node it points to, which depends on the lexical order of generated names.", "anchors": ["hickle/hickle.py:_dump", "hickle/hickle.py:_load", "hickle/lookup.py:ExpandReferenceContainer", "hickle/lookup.py:ReferenceManager"]}
{"id": "C03", "title": "Whatever dump accepts, load can read back - including cycles", "statement": "If dump(obj, f) returns without an exception then load(f) returns an object, also when obj contains itself directly or indirectly.", "quantifier": "every object graph, cyclic or not; every interpreter recursion limit", "why_tests_cant": "Failure for cyclic input is non-termination bounded only by the interpreter's recursion limit; to show that load fails for every limit and every cycle needs an induction.", "anchors": ["hickle/hickle.py:_dump", "hickle/hickle.py:_load"]}
{"id": "C04", "title": "The loaded object does not depend on HDF5 iteration order", "statement": "The object returned by load is the same whatever order h5py lists the members of a group in (by name, by creation order, or any other permutation).", "quantifier": "every file produced by dump and every permutation of the members of every group in it", "why_tests_cant": "h5py's order is fixed per library version and file option; tests exercise one permutation out of factorially many.", "anchors": ["hickle/hickle.py:_load", "hickle/loaders/load_builtins.py:ListLikeContainer.append", "hickle/loaders/load_builtins.py:DictLikeContainer.append"]}
{"id": "C05", "title": "Integers of every size survive", "statement": "A Python int dumped as an object of its own or as a member of a container that is stored item by item loads back as the same int, whatever its magnitude and sign; in particular around +-2**63 where the storage format changes.", "quantifier": "every integer", "why_tests_cant": "Unbounded domain with a representation switch in the middle; the sign makes the boundary asymmetric.", "anchors": ["hickle/loaders/load_builtins.py:create_scalar_dataset", "hickle/loaders/load_builtins.py:load_scalar_dataset"]}
{"id": "C06", "title": "Strings and byte strings survive exactly", "statement": "Every str (any code points, NUL, empty, astral planes) and every bytes value dumped loads back identical; a str that has no UTF-8 encoding (lone surrogate) makes dump raise instead of storing something else.", "quantifier": "every sequence of code points, every sequence of bytes", "why_tests_cant": "Infinite domain; encoder and decoder have four length classes whose boundaries tests sample only sparsely.", "anchors": ["hickle/loaders/load_builtins.py:create_listlike_dataset", "hickle/loaders/load_builtins.py:load_list_dataset"]}
{"id": "C07", "title": "Distinct dict keys never share a storage slot", "statement": "Two different keys of one dict are never stored under the same HDF5 name, whatever their types: a str never clashes with the repr of a number, with a bytes key or with a generated data<i> name. (Two distinct NaN keys are the one exception: dump refuses them.)", "quantifier": "every dict, every pair of its keys of any types", "why_tests_cant": "The clash would need a hand-crafted key that looks like another key's encoding; exhaustive pairs over unbounded strings are out of reach of tests.", "anchors": ["hickle/loaders/load_builtins.py:create_dictlike_dataset"]}
{"id": "C08", "title": "Dict keys come back with the same type and value", "statement": "For every dict key of type str, bytes, int, float, complex, bool or None, and for every key stored as a key/value pair, load returns an equal key of the same type at the same position of the iteration order.", "quantifier": "every dict and every key in it", "why_tests_cant": "The key is recovered by parsing the HDF5 name with a type-dependent parser; one wrong parser entry affects one key value out of an infinite domain.", "anchors": ["hickle/loaders/load_builtins.py:dict_key_types_dict", "hickle/loaders/load_builtins.py:DictLikeContainer.append"]}
{"id": "C09", "title": "Sequences keep their order and length", "statement": "A list or tuple of any length loads back with every item at its original index, however many digits the indices have.", "quantifier": "every list and tuple of every length", "why_tests_cant": "Order only goes wrong once the lexical order of data<i> departs from numeric order and a shared object is met out of order; lengths are unbounded.", "anchors": ["hickle/loaders/load_builtins.py:create_listlike_dataset", "hickle/loaders/load_builtins.py:ListLikeContainer"]}
{"id": "C10", "title": "Numbers inside lists, tuples and sets keep their value", "statement": "Every number in a list, tuple or set loads back equal to the number dumped, also when ints, bools, floats and complex numbers are mixed in one sequence, and a set keeps all its elements.", "quantifier": "every finite sequence of bool, int, float and complex values", "why_tests_cant": "The loss appears only for integers beyond 2**53 next to a float; value domain and mixtures are infinite.", "anchors": ["hickle/loaders/load_builtins.py:check_iterable_item_type", "hickle/loaders/load_builtins.py:create_listlike_dataset"]}
{"id": "C11", "title": "A second round trip changes nothing more", "statement": "Dumping a loaded object and loading it again gives an object identical in values and types to the first loaded one (the numpy scalars introduced by the first load are stable).", "quantifier": "every object graph covered by C01", "why_tests_cant": "Needs two full round trips over all graphs.", "anchors": ["hickle/loaders/load_builtins.py", "hickle/loaders/load_numpy.py:create_np_scalar_dataset"]}
{"id": "C12", "title": "Instances of subclasses of built-in types survive", "statement": "An instance of a subclass of str, bytes, int, float, list, tuple, set or dict that dump accepts is loaded as an equal instance of the same subclass.", "quantifier": "every subclass and every instance", "why_tests_cant": "Depends on the subclass constructor; the set of subclasses is open ended and only a few are tested.", "anchors": ["hickle/lookup.py:LoaderManager.load_loader", "hickle/loaders/load_builtins.py:load_list_dataset", "hickle/loaders/load_builtins.py:DictLikeContainer"]}
{"id": "C13", "title": "Objects without a loader are pickled and come back", "statement": "An object whose class has no registered loader in any base class is stored through pickle and load returns the unpickled object; if its loader declares it not hicklable it is pickled too; if it can not be pickled dump raises and never stores a different object in its place.", "quantifier": "every class hierarchy and registration state", "why_tests_cant": "Open-ended class hierarchies and registry contents.", "anchors": ["hickle/lookup.py:create_pickled_dataset", "hickle/lookup.py:load_pickled_data", "hickle/hickle.py:_dump"]}
{"id": "C14", "title": "dump never overwrites existing data in a group", "statement": "Dumping to a path whose group already has members raises ValueError and changes neither that group's data and attributes nor anything else in the file.", "quantifier": "every file content, path and object", "why_tests_cant": "All prior file contents and all objects.", "anchors": ["hickle/hickle.py:dump"]}
{"id": "C15", "title": "Objects dumped to different paths of a file are independent", "statement": "After any sequence of dumps, successful or failing, loads and reopenings of one file, load(path) returns exactly the object that was successfully dumped to path, provided no other call was directed at or into the two members (data and hickle_types_table) that dump made in the group.", "quantifier": "every sequence of dump calls with arbitrary objects and paths", "why_tests_cant": "All histories; interference would be through shared type tables, memo state or path prefixes.", "anchors": ["hickle/hickle.py:dump", "hickle/hickle.py:load", "hickle/lookup.py:ReferenceManager"]}
{"id": "C16", "title": "A failed dump is never mistaken for a good one", "statement": "If dump raises, then a later load from the same path raises as well, or returns what it would have returned before the failed call, or returns exactly the object that was to be dumped; it never returns a different object.", "quantifier": "every object graph and every point at which dump can raise", "why_tests_cant": "Crash points: any item at any depth may be the one that fails.", "anchors": ["hickle/hickle.py:dump", "hickle/loaders/load_builtins.py:ListLikeContainer", "hickle/helpers.py:nobody_is_my_name"]}
{"id": "C17", "title": "Each call cleans up its per-file managers; concurrent use of one file is refused", "statement": "After dump or load ends, normally or by exception, the same open file can be used for another dump or load; starting a second dump or load on a file while one is in progress raises; operations on different files never interfere.", "quantifier": "every interleaved sequence of dump and load begin and end events on any number of files, with exceptions at any point", "why_tests_cant": "All nested histories including failures at each step.", "anchors": ["hickle/lookup.py:BaseManager", "hickle/lookup.py:ReferenceManager.__exit__", "hickle/lookup.py:LoaderManager.__exit__"]}
{"id": "C18", "title": "hickle closes exactly the files it opened", "statement": "On every exit of dump and load, normal or exceptional, a file that hickle opened (name, Path or file-like object) is closed and a file handed in open by the caller (h5py.File or Group) stays open.", "quantifier": "every kind of file argument, every outcome of every step in between (including failures of flush and close)", "why_tests_cant": "All failure points combined with all argument kinds.", "anchors": ["hickle/hickle.py:dump", "hickle/hickle.py:load", "hickle/fileio.py:file_opener"]}
{"id": "C19", "title": "The garbage collector setting of the caller is left as found", "statement": "After dump or load ends, automatic garbage collection is enabled if and only if it was enabled before the call.", "quantifier": "every prior collector state and every outcome of the call", "why_tests_cant": "Combination of prior state and exceptional exits.", "anchors": ["hickle/hickle.py:dump", "hickle/hickle.py:load"]}
{"id": "C20", "title": "File argument handling is total and safe", "statement": "file arguments are accepted or refused as documented: a closed handle raises ClosedFileError; an h5py object of a read-only file is refused for every writing mode; a file-like object that can not be read or seeked, or not written when writing is requested, is refused; paths are normalised to start with '/' and are relative to the group handed in.", "quantifier": "every combination of argument kind, open mode string, capability set and path string", "why_tests_cant": "Product of argument kinds, mode strings, capabilities and unbounded path strings.", "anchors": ["hickle/fileio.py:file_opener", "hickle/fileio.py:not_io_base_like"]}
{"id": "C21", "title": "load fails only with ValueError once the file is open, and never returns a half-built object", "statement": "Once the file has been opened, any problem found while loading is reported as ValueError; the return value is only produced when the whole tree was read.", "quantifier": "every file content and every failure inside the loaders", "why_tests_cant": "All malformed files.", "anchors": ["hickle/hickle.py:load"]}
{"id": "C22", "title": "Files are read by the loader of the version that wrote them", "statement": "load selects the version 3, version 4 or current reader from the file's attributes alone: version-3 attributes of the file root select the v3 reader whatever the group holds, otherwise HICKLE_VERSION major 4 selects the 4.x compatibility mode, any other number selects the current one, and a group without the attributes is refused; what this version's dump has written to a file that is not a version 3 file is always read in current mode.", "quantifier": "every attribute content of the file root and of the group", "why_tests_cant": "All attribute combinations, including foreign root attributes.", "anchors": ["hickle/hickle.py:load"]}
{"id": "C23", "title": "Compression keywords never change what is stored or whether it can be stored", "statement": "For every set of h5py filter keywords, dump with them succeeds whenever dump without them does, and load returns the same object.", "quantifier": "every object graph and every subset of filter keywords", "why_tests_cant": "HDF5 rejects filters on scalar and empty datasets, so one forgotten removal on one branch breaks objects that contain such a node anywhere.", "anchors": ["hickle/helpers.py:no_compression", "hickle/loaders/load_builtins.py", "hickle/loaders/load_numpy.py:create_np_array_dataset"]}
{"id": "C24", "title": "Loader options chosen at dump are in force at load", "statement": "The optional loader sets active while loading a file are exactly those that were switched on in the options of the dump that wrote it.", "quantifier": "every options dictionary and every attribute content of the target group", "why_tests_cant": "All option dictionaries; option names pass through upper/lower casing and a regular expression.", "anchors": ["hickle/lookup.py:LoaderManager.__init__"]}
{"id": "C25", "title": "Core loaders can not be replaced or disabled", "statement": "No sequence of register_class and register_class_exclude calls by loader modules changes how pickled data, shared references and recovered data are loaded.", "quantifier": "every finite sequence of registration calls with arbitrary arguments", "why_tests_cant": "All histories of registrations.", "anchors": ["hickle/lookup.py:LoaderManager.register_class", "hickle/lookup.py:LoaderManager.register_class_exclude"]}
{"id": "C26", "title": "The most specific registered class decides", "statement": "An object is dumped by the loader registered for the first class in its method resolution order that has one, looked up in the active option sets before the global set; if there is none it is pickled; registering a class again replaces its loader.", "quantifier": "every class hierarchy, registration history and option set", "why_tests_cant": "Open-ended hierarchies and histories, with loader modules imported lazily in between.", "anchors": ["hickle/lookup.py:LoaderManager.load_loader", "hickle/lookup.py:LoaderManager.register_class"]}
{"id": "C27", "title": "Type information is stored once and resolves to the right class", "statement": "For any sequence of objects dumped into a file, each class has one entry in the types table, and resolving the type of any stored node gives the class and loader name it was stored with.", "quantifier": "every sequence of (class, loader name) pairs", "why_tests_cant": "All histories of type registrations in one file; entry names are generated from a running length.", "anchors": ["hickle/lookup.py:ReferenceManager.store_type", "hickle/lookup.py:ReferenceManager.resolve_type"]}
{"id": "C28", "title": "Data of classes that no longer exist is recovered, not lost", "statement": "Loading a file that contains objects whose class can not be imported any more still succeeds; each such object is replaced by a recovered dict or array that holds all of its members' data, its attributes and its loader name, and all other objects load as usual.", "quantifier": "every object graph and every set of missing classes", "why_tests_cant": "All subsets of missing classes over all graphs.", "anchors": ["hickle/lookup.py:RecoverGroupContainer", "hickle/lookup.py:recover_custom_dataset", "hickle/lookup.py:ReferenceManager.resolve_type"]}
{"id": "C29", "title": "Stale references are detected", "statement": "A node reference or type reference that does not point to an existing node makes load raise; it is never resolved to another object or to None.", "quantifier": "every file in which an arbitrary reference is dangling", "why_tests_cant": "All positions of the damage in all files.", "anchors": ["hickle/lookup.py:ExpandReferenceContainer.filter", "hickle/lookup.py:ReferenceManager.resolve_type"]}
{"id": "C30", "title": "Loading never modifies the file", "statement": "load leaves the content of the file as it was, whichever mode the caller opened it in.", "quantifier": "every file and every open mode", "why_tests_cant": "All file contents, including legacy files without a types table.", "anchors": ["hickle/hickle.py:load", "hickle/lookup.py:ReferenceManager.__init__"]}
{"id": "C31", "title": "Attribute overrides for legacy files stay local", "statement": "Temporarily overriding node attributes while loading legacy files never changes the attributes stored in the file, reads see the latest override and otherwise the stored value.", "quantifier": "every sequence of attribute reads, writes and deletes through the proxy", "why_tests_cant": "All operation sequences.", "anchors": ["hickle/helpers.py:H5NodeFilterProxy", "hickle/loaders/load_scipy.py:SparseMatrixContainer._redirect_to_ndarray"]}
{"id": "C32", "title": "Version 3 sequences are read in numeric order", "statement": "When reading version 3 files, members named with a running number are visited in the order of that number for every count of members, and no member is dropped or duplicated.", "quantifier": "every list of member names", "why_tests_cant": "Only shows for ten or more members and names with several digit groups.", "anchors": ["hickle/legacy_v3/helpers.py:sort_keys", "hickle/legacy_v3/hickle.py:_load"]}
{"id": "C33", "title": "numpy arrays come back with the same shape, dtype and elements", "statement": "Every numpy array of numbers, strings or objects, of any shape including 0-d and empty, that dump accepts loads back with the same shape, dtype and elements.", "quantifier": "every array: shape, dtype class and element values", "why_tests_cant": "All shapes; object arrays rebuild their shape from nested lists, which is ambiguous for some contents only.", "anchors": ["hickle/loaders/load_numpy.py:create_np_array_dataset", "hickle/loaders/load_numpy.py:load_ndarray_dataset", "hickle/loaders/load_numpy.py:NDArrayLikeContainer"]}
{"id": "C34", "title": "Sparse and masked arrays keep their parts apart", "statement": "A csr, csc or bsr matrix loads back with data, indices, indptr and shape each in its own role, and a masked array with its data and mask, whatever order the parts are read in.", "quantifier": "every matrix and masked array, every member iteration order", "why_tests_cant": "Positional reconstruction under all iteration orders.", "anchors": ["hickle/loaders/load_scipy.py", "hickle/loaders/load_numpy.py:create_np_masked_array_dataset", "hickle/loaders/load_numpy.py:NDMaskedArrayContainer"]}
{"id": "C35", "title": "Temporary objects never alias", "statement": "While dumping, a temporary object (for example a key/value pair or an array view) is never taken for an object dumped earlier just because it was allocated at the same address.", "quantifier": "every sequence of object creations, dumps and releases and every address assignment the memory manager may choose", "why_tests_cant": "Depends on the allocator's reuse of addresses: a schedule, not an input.", "anchors": ["hickle/hickle.py:_dump", "hickle/lookup.py:ReferenceManager"]}
{"id": "C36", "title": "Corrupt sequence files are not read as valid sequences", "statement": "If a stored list or tuple lacks an item, or two items claim the same index, load raises instead of inventing or dropping an item.", "quantifier": "every set of stored items and indices", "why_tests_cant": "All subsets and duplications of items.", "anchors": ["hickle/loaders/load_builtins.py:ListLikeContainer", "hickle/helpers.py:nobody_is_my_name"]}
{"id": "C37", "title": "dump terminates on every object graph and writes each shared object once", "statement": "dump ends for every finite object graph, cyclic or not, given enough stack, and the body of a list, tuple, dict, set or pickled object is stored exactly once however often it is referenced.", "quantifier": "every finite object graph", "why_tests_cant": "Termination on all cyclic graphs.", "anchors": ["hickle/hickle.py:_dump"]}
{"id": "C38", "title": "Metadata of astropy tables survives", "statement": "Every metadata entry of an astropy Table that dump accepts is present and equal after load, next to the column names, and there are no entries the table did not have.", "quantifier": "every metadata dictionary and column name list, wherever in an object graph the table is", "why_tests_cant": "Metadata keys share a name space with hickle's own attributes; only particular key names clash.", "anchors": ["hickle/loaders/load_astropy.py:create_astropy_table", "hickle/loaders/load_astropy.py:load_astropy_table"]}
{"id": "C39", "title": "Files given by name: modes, round trip and other files", "statement": "dump(obj, name, mode, path) that returned followed by load(name, path) gives a copy, also after any further calls on this and other files whose mode keeps the content and whose paths do not lead into the dump; mode 'w' discards what was in the file, mode 'x' refuses an existing file and leaves it alone, load by name changes no file, and no call changes a file other than the one its file argument stands for.", "quantifier": "every file name, mode, path spelling, previous content of all files, history of calls on any number of files, and failure of opening, flushing or closing", "why_tests_cant": "Unbounded histories over several files, combined with every failure point.", "anchors": ["hickle/hickle.py:dump", "hickle/hickle.py:load", "hickle/fileio.py:file_opener"]}
{"id": "C40", "title": "dump accepts every object graph in its domain", "statement": "dump of a graph of built-in containers, numbers, strings, bytes, numpy scalars and arrays (of numbers, strings or objects, masked or not), sparse matrices, subclasses and picklable objects returns, with any sharing, cycles and depth the interpreter's stack allows, for any free path of any writable file, whatever else the file holds; together with C01 an acyclic graph is always stored and read back.", "quantifier": "every object graph, file content, free path and supported filter keywords", "why_tests_cant": "Whether some combination of keys, numbers, nesting and sharing is refused depends on all items together: a common number type, colliding names, table entries.", "anchors": ["hickle/hickle.py:dump", "hickle/hickle.py:_dump", "hickle/loaders/load_builtins.py:create_listlike_dataset", "hickle/loaders/load_builtins.py:check_iterable_item_type", "hickle/loaders/load_builtins.py:create_dictlike_dataset", "hickle/lookup.py:ReferenceManager.store_type"]}
{"id": "C41", "title": "An object written by version 3 is read back by the version 3 code", "statement": "For a file written by hickle 3, load returns the object that was dumped: containers nested to any depth with the same items in order and the same keys, the same numbers, strings, bytes, arrays, masked arrays and sparse matrices, whatever order HDF5 lists members in; an object stored at one path does not change what load returns for another path.", "quantifier": "every Python value of the supported classes, every path not in use, every file content beside it, every order of listing members, h5py 2 and 3 on either side", "why_tests_cant": "Keys travel through repr and literal_eval as names of groups, items through numbered members that are sorted, types through attributes; which combination loses a value depends on all of them.", "anchors": ["hickle/legacy_v3/hickle.py:_dump", "hickle/legacy_v3/hickle.py:_load", "hickle/legacy_v3/hickle.py:create_dict_dataset", "hickle/legacy_v3/hickle.py:PyContainer.convert", "hickle/legacy_v3/helpers.py:sort_keys", "hickle/legacy_v3/loaders/load_python3.py", "hickle/legacy_v3/loaders/load_numpy.py", "hickle/legacy_v3/loaders/load_scipy.py", "hickle/legacy_v3/lookup.py"]}
{"id": "C42", "title": "astropy quantities, angles, coordinates, times and constants come back", "statement": "A quantity or angle loads with the same numbers, shape and unit; a SkyCoord with the same directions, frame and distance; a Time with the same instant, format, scale and options; a constant with the same texts, numbers and system.", "quantifier": "every value, shape, unit, frame, time format and scale, with and without compression options, h5py 2 and 3", "why_tests_cant": "The values are converted to float64 or byte strings and rebuilt by constructors from a few attributes; whether something is lost depends on the number, format or frame, and tests compare a few values in default frames and formats.", "anchors": ["hickle/loaders/load_astropy.py:create_astropy_quantity", "hickle/loaders/load_astropy.py:create_astropy_skycoord", "hickle/loaders/load_astropy.py:create_astropy_time", "hickle/loaders/load_astropy.py:create_astropy_constant", "hickle/loaders/load_astropy.py:load_astropy_time_dataset", "hickle/helpers.py:load_str_attr_ascii"]}
{"id": "C43", "title": "What dump does depends on the object and the file, not on what the process did before", "statement": "Dumping the same object with the same arguments into files with the same content has the same outcome, a return or the same exception, and leaves the same content, whatever dumps and loads, successful or not, on whatever files, the process has made before.", "quantifier": "every object graph, file content, path, keyword and every two histories of earlier calls", "why_tests_cant": "Loaders are registered in class level tables the first time a class is met and looked up from then on; whether an earlier call changes a later one depends on the order in which classes, packages and options were met.", "anchors": ["hickle/lookup.py:LoaderManager.load_loader", "hickle/lookup.py:LoaderManager.register_class", "hickle/hickle.py:_dump", "hickle/hickle.py:dump"]}
{"id": "C44", "title": "Loader modules are found where the documentation says, run once, and may be missing", "statement": "The loader module for the classes of a package, module or script is the first of: the one already imported, hickle/loaders/load_<name>.py, hickle_loaders/load_<name>.py beside the file of the package, module or script, or the compiled file there; the same one every time. Each is run and registered at most once in a process. Without a loader module objects are pickled; looking for one never makes dump fail.", "quantifier": "every class and list of base classes, every state of sys.modules, of the import system and of the file system, every history of earlier lookups", "why_tests_cant": "The search depends on the state of the import system, on file names and on what earlier lookups have remembered; the tests replace parts of importlib and run each path once.", "anchors": ["hickle/lookup.py:LoaderManager.load_loader", "hickle/lookup.py:_custom_loader_enabled_builtins", "README.md"]}
{"id": "C45", "title": "A dump that is interrupted harms nothing but itself", "statement": "If an exception hits a dump at any point (the disk is full, a device fails, the user interrupts), before or after a step took effect, once or several times, also while hickle is cleaning up: everything dumped before at other paths still loads equal to the dumped objects, nothing that was in the file is changed, and the open file can be used for further dumps and loads.", "quantifier": "every file, object and option, every sequence of exceptions at every step of the dump, every history of interrupted and complete dumps, loads and reopenings", "why_tests_cant": "The number of points at which an exception can come grows with the object; tests can inject a failure at a few of them and not at combinations.", "anchors": ["hickle/hickle.py:dump", "hickle/hickle.py:_dump", "hickle/lookup.py:BaseManager.create_manager", "hickle/lookup.py:ReferenceManager.__exit__", "hickle/lookup.py:LoaderManager.__exit__"]}
{"id": "C46", "title": "Dumps in several threads do not disturb each other", "statement": "When several threads of a process dump at the same time, each into a file of its own, every call returns or raises exactly as it would have alone, every file is the one it would have been, and all calls end, in whatever order the threads get to run.", "quantifier": "any number of threads, objects and files, every interleaving of their steps", "why_tests_cant": "Whether threads meet in the few statements between reading and filling the shared loader tables depends on the scheduler; a test sees one interleaving per run and almost never the harmful ones.", "anchors": ["hickle/lookup.py:LoaderManager.load_loader", "hickle/lookup.py:LoaderManager.register_class", "hickle/lookup.py:LoaderManager.register_class_exclude", "hickle/hickle.py:dump"]}
{"id": "C47", "title": "Files written by hickle 4.0 still load with the same values", "statement": "Whatever object hickle 4.0 has stored in a file, load of this version returns an object of the same value and type: nested lists, tuples, sets and dictionaries (of subclasses too) with numbers, strings, byte strings, numpy arrays, masked arrays, sparse matrices and pickled objects, with sequences and dictionary entries in their old order, no matter in which order HDF5 lists the members of a group.", "quantifier": "every object hickle 4.0 could dump (apart from keys with slashes), every name order HDF5 may list members in", "why_tests_cant": "The test suite loads one file with a handful of objects; the readers for old files take decisions on lengths, shapes, key texts and neighbouring members, and whether these hold for all nestings is not settled by one file.", "anchors": ["hickle/hickle.py:load", "hickle/hickle.py:_load", "hickle/loaders/load_builtins.py:load_hickle_4_x_string", "hickle/loaders/load_builtins.py:load_list_dataset", "hickle/loaders/load_builtins.py:DictLikeContainer", "hickle/loaders/load_numpy.py:load_ndarray_masked_dataset", "hickle/lookup.py:fix_lambda_obj_type"]}
{"id": "C48", "title": "A load that is interrupted changes nothing and never returns part of the data", "statement": "Wherever a load is interrupted by an exception, raised by h5py or by an interrupt of the user, it ends with an exception and never returns part of an object for the whole; if it returns at all, it returns what it would have returned without the exceptions. The file keeps its content, a later load of the same path returns the object, and the open file can be used for further calls.", "quantifier": "every file content, every point of a load at which an exception can be raised before or after a step takes effect, any number of such loads and exceptions, exceptions from h5py only or from anywhere", "why_tests_cant": "A load has as many points of interruption as steps, and their number grows with the data; tests reach the few that can be provoked by damaged files.", "anchors": ["hickle/hickle.py:load", "hickle/hickle.py:_load", "hickle/lookup.py:BaseManager.create_manager", "hickle/lookup.py:ReferenceManager", "hickle/lookup.py:LoaderManager"]}
{"id": "C49", "title": "Loads and dumps in several threads do not disturb each other", "statement": "When several threads of a process load and dump at the same time, each with a file of its own, every load returns the value, or raises the error, it would have returned or raised alone, every dump leaves the file it would have left alone, and all calls end, in whatever order the threads get to run. In particular a value dumped before is read back as a copy of it.", "quantifier": "any number of threads that load or dump, any files and objects, every interleaving of their steps", "why_tests_cant": "The number of interleavings grows exponentially with the steps; a test runs a few of them, chosen by the scheduler, and a substitute for a lost value goes unnoticed unless every returned object is compared.", "anchors": ["hickle/hickle.py:load", "hickle/hickle.py:_load", "hickle/lookup.py:LoaderManager.load_loader", "hickle/lookup.py:ReferenceManager.resolve_type", "hickle/lookup.py:BaseManager.create_manager"]}
{"id": "C50", "title": "What load returns does not depend on what the process has done before", "statement": "Whatever a process has dumped and loaded before, load returns the same object, or raises the same error, as in a process that has just started, for every file, be its content damaged, incomplete or not written by dump.", "quantifier": "every file content, every path, every two histories of dumps and loads in the process", "why_tests_cant": "Loaders are registered as a side effect of earlier calls; a test suite runs many calls in one process and so hides what a new process would do, and the number of histories is unbounded.", "anchors": ["hickle/hickle.py:load", "hickle/hickle.py:_load", "hickle/lookup.py:LoaderManager.load_loader", "hickle/lookup.py:ReferenceManager.resolve_type"]}
{"id": "C51", "title": "numpy dtypes, and arrays and numbers of every dtype, come back as they were", "statement": "A dumped numpy dtype loads as the same dtype, and a dumped numpy array or number of any dtype h5py can store loads with the same dtype, byte order included, the same shape and the same bits in every item.", "quantifier": "every dtype: numbers of each kind, size and byte order, bytes, void and strings of every length, times of every unit and multiple, structures and subarrays of any depth; every shape and content", "why_tests_cant": "Dtypes are an unbounded, recursive family (lengths, units, nested structures); a test list names a few of them, and comparing arrays with == does not notice a lost byte order or lost fields.", "anchors": ["hickle/loaders/load_numpy.py:create_np_dtype", "hickle/loaders/load_numpy.py:load_np_dtype_dataset", "hickle/loaders/load_numpy.py:create_np_array_dataset", "hickle/loaders/load_numpy.py:load_ndarray_dataset", "hickle/loaders/load_numpy.py:create_np_scalar_dataset"]}
{"id": "C52", "title": "hickle never falls back silently", "statement": "dump gives a warning, naming the class, for every object it stores as a pickle string, and for no other; load gives a warning, naming the missing loader, for every object it replaces by raw data. A load without a warning has replaced nothing.", "quantifier": "every object graph, file content, set of classes that are missing, file mode and history; dumps that fail included", "why_tests_cant": "Both calls succeed in these cases, so a missing warning is only noticed if a test provokes exactly that fallback at exactly that place of a graph and counts the warnings; there is no bound on the number and nesting of such objects.", "anchors": ["hickle/lookup.py:create_pickled_dataset", "hickle/lookup.py:load_pickled_data", "hickle/lookup.py:recover_custom_dataset", "hickle/lookup.py:RecoverGroupContainer.filter", "hickle/hickle.py:_dump"]}
{"id": "C53", "title": "reading an object back needs no deeper recursion than writing it", "statement": "If dump writes an object without exceeding the interpreter's recursion limit, load under the same limit reads it; what a process could store, a process like it can read.", "quantifier": "every object graph, nesting, sharing of objects, recursion limit, order in which HDF5 gives the members of a group, and history of the file", "why_tests_cant": "The depth of the calls depends on the interplay of nesting, sharing and the order of names in the file; tests use graphs far below the limit, where no difference shows.", "anchors": ["hickle/hickle.py:_dump", "hickle/hickle.py:_load", "hickle/lookup.py:ExpandReferenceContainer"]}
{"id": "C54", "title": "loaders that are right alone are right together", "statement": "If each class registered with register_class has a dump function and a container that, taken alone, restore what they store, then load returns a copy of what dump was given, for object graphs that mix objects of these classes, of classes derived from them and of classes that are pickled, with sharing kept.", "quantifier": "every set of registered classes, dump functions and containers that satisfy the contract one by one; every finite object graph of such objects; every order in which HDF5 gives the members of a group", "why_tests_cant": "The author of a loader tests it alone; that it also works for objects inside, beside and shared with objects of all other loaders, including those written later by others, is a statement about all loaders and all graphs.", "anchors": ["hickle/lookup.py:LoaderManager.register_class", "hickle/lookup.py:LoaderManager.load_loader", "hickle/hickle.py:_dump", "hickle/hickle.py:_load", "hickle/helpers.py:PyContainer"]}
{"id": "C55", "title": "pickled objects keep what they share", "statement": "Objects of classes without a loader are stored as pickle strings. After load such an object and everything it refers to is as before, and an object that it shares with objects outside of the pickle string is still one object.", "quantifier": "every object graph that mixes objects with loaders and objects that are pickled; every set of loaders that are right alone", "why_tests_cant": "Sharing between two objects only shows in graphs where a reference crosses the border between pickled and not pickled objects, at any depth on either side.", "anchors": ["hickle/lookup.py:create_pickled_dataset", "hickle/lookup.py:load_pickled_data", "hickle/lookup.py:ReferenceManager", "hickle/hickle.py:_dump"]}
{"id": "C56", "title": "the work of dump and load grows with the objects, not with the paths between them", "statement": "The size of the file that dump writes is bounded by the objects and the references they hold, and load visits each stored object once and each reference once, however many paths lead through the object graph.", "quantifier": "every object graph with any sharing; every set of loaders that are right alone; every order in which HDF5 gives the members of a group", "why_tests_cant": "The number of paths grows exponentially with the depth of sharing; that no combination of shared containers is written or read more than once is a statement about all graphs.", "anchors": ["hickle/hickle.py:_dump", "hickle/hickle.py:_load", "hickle/lookup.py:LoaderManager.register_class", "hickle/lookup.py:ExpandReferenceContainer"]}
{"id": "C57", "title": "what a failed or interrupted dump leaves loads as a part of the object or not at all", "statement": "After a dump to a free path that failed or was interrupted, load from this path either raises or returns a part of the dumped object: whatever it contains has the class, the value and the place it had in the dumped object, and what is missing is missing visibly, as an empty tuple, a missing element or a missing entry. Nothing is invented, exchanged or mixed with other data.", "quantifier": "every object graph of the supported types, cyclic ones included; every exception dump raises by itself; every sequence of exceptions at every step; every content of the rest of the file; every later process that loads, every order in which HDF5 gives the members of a group", "why_tests_cant": "There are as many half-written files as there are steps of every dump of every object; a test looks at a few of them, and at loads that happen to fail.", "anchors": ["hickle/hickle.py:_dump", "hickle/hickle.py:_load", "hickle/lookup.py:ReferenceManager.store_type", "hickle/lookup.py:ReferenceManager.resolve_type", "hickle/lookup.py:load_pickled_data", "hickle/loaders/load_builtins.py:ListLikeContainer"]}
{"id": "C58", "title": "a dump that raises destroys nothing that could be loaded before", "statement": "When a call of dump raises, for whatever reason, every object that could be loaded from the file before the call can still be loaded from it afterwards.", "quantifier": "every object dumped earlier, every history of calls in between, every argument of the failing call, every exception and every failure to open, flush or close the file", "why_tests_cant": "A test fails one dump at one place over one file; the claim is about every way to fail over every content.", "anchors": ["hickle/hickle.py:dump", "hickle/fileio.py:file_opener", "hickle/hickle.py:_dump"]}
{"id": "C59", "title": "the file depends on the content of the object, not on its addresses or the process", "statement": "Two objects made of the same classes, values and items in the same order, with the same sharing, are dumped into equal files, or both dumps raise the same exception and leave equal files, wherever the objects are in memory, whatever was dumped or loaded before, and whether or not equal numbers are one object.", "quantifier": "every pair of corresponding object graphs, every pair of histories of the two processes, every file, path and option", "why_tests_cant": "Addresses, reuse of addresses and interning differ between runs; a test sees one layout of memory.", "anchors": ["hickle/hickle.py:_dump", "hickle/hickle.py:dump", "hickle/lookup.py:ReferenceManager.store_type", "hickle/lookup.py:LoaderManager.load_loader"]}
{"id": "C60", "title": "dumping what was loaded gives the same file again", "statement": "Dump an object and load it. Every call of dump then does with the loaded object what it would have done with the original: it returns or raises the same exception, and leaves the same file. In particular dumping the loaded object into a fresh copy of the file reproduces the file.", "quantifier": "every object graph that can be dumped and loaded, every file, path, options and keyword arguments of the second dump, every history of the process that makes it, every order in which HDF5 lists members", "why_tests_cant": "A test compares a few files; the claim is for all objects, including those whose parts change type when loaded, such as numbers in lists.", "anchors": ["hickle/hickle.py:dump", "hickle/hickle.py:load", "hickle/loaders/load_builtins.py:create_listlike_dataset", "hickle/loaders/load_builtins.py:create_dictlike_dataset"]}
{"id": "C61", "title": "the data in the file can be found and read without hickle", "statement": "After dump has returned, every part of the object is found in the file under the name of the part (items as data0, data1, ..., dict values under their quoted or written key, entries whose key has no such name as a numbered pair, rows of arrays of strings and objects as data0, data1, ..., the parts of masked arrays and sparse matrices by their names), following object references for shared parts. There the file holds the value in plain HDF5 terms: numbers and arrays with their type and shape, texts as their bytes, lists and sets of numbers as one array, and containers as groups with exactly one member for each part. Later calls for other paths do not change this.", "quantifier": "every object graph (shared and cyclic ones included), every part of it at any depth, every file, path and later calls", "why_tests_cant": "The README promises files that other languages can read, but the tests only read files back with hickle, where a wrong name or layout is undone by the loader that matches it.", "anchors": ["README.md", "hickle/hickle.py:_dump", "hickle/loaders/load_builtins.py:create_listlike_dataset", "hickle/loaders/load_builtins.py:create_dictlike_dataset", "hickle/loaders/load_builtins.py:create_scalar_dataset", "hickle/loaders/load_numpy.py:create_np_array_dataset", "hickle/loaders/load_scipy.py:create_sparse_dataset"]}
{"id": "C62", "title": "The columns of an astropy table survive", "statement": "An astropy Table that is dumped and loaded has the same columns in the same order, each with its name, values, missing values, unit and description.", "quantifier": "every table: any number of columns of any type, any number of rows, any units and masks", "why_tests_cant": "A test compares a table or two; what is lost (units, missing values) shows only in tables that have it.", "anchors": ["hickle/loaders/load_astropy.py:create_astropy_table", "hickle/loaders/load_astropy.py:load_astropy_table"]}
{"id": "C63", "title": "A file of hickle 3 can be given to load in every way other files can", "statement": "An object in a file written by hickle 3 is loaded with its value whichever way the file is given: by name, as a pathlib.Path, as an open h5py.File or h5py.Group, as a file object, or as a file object with a name in a tuple or dict.", "quantifier": "every object that version 3 can write and read back, every path in the file and every kind of file argument", "why_tests_cant": "The file is opened twice by two different openers; a test with one kind of argument (the repository's uses a name) says nothing about the others.", "anchors": ["hickle/hickle.py:load", "hickle/fileio.py:file_opener", "hickle/legacy_v3/hickle.py:file_opener", "hickle/legacy_v3/hickle.py:load"]}
{"id": "C64", "title": "safe=True keeps load from unpickling objects of hickle 3 files", "statement": "Loading a file of hickle 3 with safe=True (the default) returns built-in values, numbers and arrays only, never an object made from a pickle string in the file.", "quantifier": "every file content with the attributes of hickle 3, damaged or hostile ones included, every path and way of giving the file", "why_tests_cant": "A test loads well-behaved files; the promise is about every file someone else may have made.", "anchors": ["hickle/hickle.py:load", "hickle/legacy_v3/hickle.py:load", "hickle/legacy_v3/hickle.py:load_dataset", "hickle/legacy_v3/loaders/load_python3.py:load_pickled_data"]}
{"id": "C65", "title": "Arrays come back as instances of their class", "statement": "An instance of numpy.ndarray, numpy.matrix or a class derived from them that dump accepts is loaded as an instance of the same class.", "quantifier": "every array class, every array, at any place in the dumped object; for the negative part every file content", "why_tests_cant": "The classes derived from numpy.ndarray are open ended, and that load can never give one back is a statement about all files.", "anchors": ["hickle/loaders/load_numpy.py:load_ndarray_dataset", "hickle/loaders/load_numpy.py:NDArrayLikeContainer", "hickle/loaders/load_numpy.py:class_register", "hickle/hickle.py:_load"]}
{"id": "C66", "title": "What load returns can be dumped again", "statement": "An object that load has returned is accepted by dump, to the same file or to another, and no dump of it destroys what was loaded.", "quantifier": "every file load returns from, with all classes there or some missing, every nesting and sharing of the loaded object, every target file and path", "why_tests_cant": "Loaded objects may be nested and shared in any way and may hold recovered data at any depth; that no such object can be dumped is a statement about all of them.", "anchors": ["hickle/lookup.py:LoaderManager.load_loader", "hickle/lookup.py:RecoveredGroup", "hickle/lookup.py:RecoveredDataset", "hickle/hickle.py:_dump", "hickle/hickle.py:dump"]}
{"id": "C67", "title": "An object is loaded from wherever its group is, whatever else is in the file", "statement": "What load returns depends only on what hickle has stored at the group, not on the path of the group, on other members of the group or on the rest of the file. Groups hickle has written can be moved, renamed and linked with h5py, and other data can be added and unlinked; load from the new path then returns the object.", "quantifier": "every file with anything stored at the group, every other file that agrees with it there, every pair of paths, every order in which HDF5 lists members; every dumped object and every move of its group or of a group above it", "why_tests_cant": "There are unboundedly many files around an object, and load follows links and references to any depth: that it never looks elsewhere is a statement about all of them.", "anchors": ["hickle/hickle.py:load", "hickle/hickle.py:_load", "hickle/lookup.py:ReferenceManager", "hickle/lookup.py:ReferenceManager.resolve_type", "hickle/lookup.py:LoaderManager"]}
{"id": "C68", "title": "It makes no difference how the file and the place in it are given", "statement": "A file can be given by its name, as a pathlib.Path, as a file object (alone or with a name in a tuple, list or dict), as an open h5py.File or as a group in it, and the path relative to that and with or without leading, trailing and double slashes. Whichever way is chosen, dump in a mode that keeps the file writes the same content to the same place and ends in the same way, load returns the same, and what was dumped in one way is loaded in any other.", "quantifier": "every pair of ways to give a file and a path, every content of the file, every object, every order in which HDF5 lists members", "why_tests_cant": "The ways to give a file combine with every content of the file and every path; tests try a few ways on small files that are intact.", "anchors": ["hickle/fileio.py:file_opener", "hickle/fileio.py:not_io_base_like", "hickle/hickle.py:dump", "hickle/hickle.py:load", "hickle/lookup.py:ReferenceManager"]}
