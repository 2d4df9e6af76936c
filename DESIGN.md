# Formal model of hdmf: design

## Approach

The code in `/repo/src/hdmf` is read as text and re-expressed function by function as small, total, computable
Lean 4 definitions (`lean/Verif/Model/*.lean`).  Each definition cites the file and lines it models and says what
is simplified.  Python exceptions are values (`Except Err α`).  A method that mutates its receiver is a function
`State → Args → State × Except Err Out`: the returned state is the state *left behind even when the call raises*,
so that atomicity claims are meaningful.

* `lean/Verif/Model/X.lean`   – the model of the code of topic X (nothing else);
* `lean/Verif/Lemmas/X.lean`  – helper lemmas (no property is stated here);
* `lean/Verif/Props/X.lean`   – small independent specification, the property theorems, and beside each theorem an
  `example` showing a concrete non-trivial case that meets its hypotheses.

Property theorems are named `Cnn_...`.  Where the code violates a property as stated there is a theorem
`Cnn_..._fails` (a witness) and one `Cnn_..._partial` for what holds.  The English full statement stays in
`properties.jsonl`.

## Trusted base

* Lean 4.33.0 kernel, and the Mathlib/core definitions used in statements.
* Axioms: at most `propext`, `Classical.choice`, `Quot.sound`.  No axiom of our own, no `sorry`, no
  `native_decide`, no `bv_decide`.  (`lean/Verif/Axioms.lean` prints the axioms of every property theorem.)
* The reading of the Python code: the correspondence between `/repo` and the model is by inspection only (the code
  cannot be run here).  Python's dict (insertion ordered, unique keys), list, slice and integer semantics are modelled
  from the language reference; numpy/h5py/pandas calls are modelled by their documented behaviour where used.

## Plan per property

| id | modelled | how proved |
|----|----------|-----------|
| C01, C02 | `LabelledDict` as an association list with Python dict semantics; all mutators | invariant by induction over op histories; one-step frame theorems |
| C03, C04, C05 | `__parse_args` loop by loop over an abstract signature and call, type test as a parameter | characterisation of the result under a decidable side condition; witnesses for the cursor shift and dropped extras |
| C06 | `__shape_okay`, `__shape_okay_multi` | iff with pointwise spec |
| C07, C08 | buffer selection generator (products of ranges), num_buffers, slicing and writing | partition by induction over axes; write-back by permutation-independent membership argument |
| C09 | `_read_next_chunk`/`__next__` as state machine over a stream of `Option α` | loop invariant; induction on stream |
| C10 | chunk queue as a fuel-free well-founded loop | termination measure, projection to one dataset |
| C11, C12, C18 | `VectorIndex.add_vector/add_row/get`, nested | refinement to `List (List α)` |
| C13, C21 | precision computation and widening | invariant, arithmetic |
| C14–C17 | `DynamicTable.add_row`, `add_column`, `get` over plain and ragged columns | refinement to list of rows, invariant; witnesses for non-atomicity |
| C19, C20 | `DynamicTableRegion.get` (unique, look-up table, re-expansion) | list lemma; boundary case analysis |
| C22, C23 | `AlignedDynamicTable` over the table model | invariant, witness of non-atomicity |
| C24–C27 | heap of containers with parent pointers and children lists, `parent` setter, `_remove_child`, `set_modified`, `all_children` | heap invariant; witness for cycles; traversal correctness |
| C28 | setters | one-step + history |
| C29–C32 | HERD tables, `add_ref` branch by branch, lookups | invariants over histories; witnesses |
| C33, C34 | `GroupBuilder` | invariant; lookups |
| C35, C36 | `BuildManager` caches, ref queue | invariant; queue induction |
| C37, C56 | `resolve_spec` for attributes and named sub-specs; dtype refinement | finite map equalities; witness |
| C38–C41 | `SpecCatalog` | invariants, forest induction; witnesses for stale memo, copy, rejected registration |
| C42–C47 | `check_type`, `check_shape`, `SpecMatcher`, quantities, `ValidatorMap` | iff/table lemmas, induction; witnesses |
| C48, C49 | `__resolve_numeric_dtype`, dimension labels | case analysis over all dtypes; argmin lemma |
| C50 | `sort_keys` on JSON trees | structural induction, permutation |
| C51, C52 | `SortedArray`, `LinSpace` over integers/rationals | sortedness lemma; witnesses |
| C53, C54 | `TermSetWrapper`, `TypeConfigurator` | invariants over histories |
| C55 | namespace catalog load | witness / partial |
| C57 | `assertEqualShape` | iff/partial |
| C58 | `TypeMap` registration | history lemma |
| C59 | `ListSlicer` | slice lemma |
| C60 | `getargs`/`popargs` | list lemma; witness |
| C61, C62 | the callbacks of `LabelledDict`; `d['attr == value']` look-ups | event lists over histories; iff with a filter |
| C63, C64 | `get_data_shape`, `is_ragged`; `fmt_docval_args`, `call_docval_func` | structural induction; list lemmas |
| C65 | default chunk and buffer shapes | bounds over natural numbers |
| C66 | resizing of a dataset in `write_chunk` | case analysis, induction over chunks |
| C67, C68 | selections on `VectorIndex`; ids of a `DynamicTable` | refinement, invariant over histories |
| C69, C70, C71 | enum check; `create_region`; `get_ancestor(s)` | iff; bounds; induction over the path to the root |
| C72 | `MultiContainerInterface` add/get/getitem/create/delete over the container heap | invariant over histories; witnesses |
| C73, C74 | `GroupBuilder.source` setter; container setters | induction over the tree of builders |
| C75–C77 | `from_zip` checks, `to_dataframe`, `get_key` | the same invariant as C29; permutation |
| C78, C79 | `AlignedDynamicTable.add_row/get`; queries on `SortedArray` | refinement; sortedness |
| C80–C82 | dtype synonyms; matching of children; term sets | iff |
| C83, C84, C104, C105 | `BuildManager.build` with the calls a mapper makes as an abstract list of events | invariant over all nestings; cycles by a stuck-set argument |
| C85 | `__is_sub_dtype`, attribute overriding | case analysis; witnesses |
| C86–C88 | `convert_dtype` for all values and specs of the model | case analysis, structural induction |
| C89–C95 | `NamespaceCatalog.load_namespaces` and helpers over an abstract file system | invariants, fuel induction; witnesses |
| C96–C103 | `TypeMap` registration, class generation, mapper cache, copy, merge | invariants over histories; witnesses |
| C111–C114 | with C72 | counterexamples; reachability relations for what holds |
| C115 | `ObjectMapper.build` and `construct` over a heap of containers and trees of builders, links by object id; types as trees of attribute, dataset, group and link specifications with the two tables specification → attribute, argument | induction on the depth for `construct (build o)`; inside a container induction on the nesting of groups with one notion of item (`Sound`: items do not get in each other's way) and one of value (`Leaf`) |
| C116, C117, C119 | with C115 | an invariant of every step of a build, without assumptions on the type |
| C118 | with C115 | emptiness of a group ↔ no leaf below it has a value, by induction on the nesting |
| C120 | `__check_quantity` | case analysis |
| C121–C124 | with C115 | counterexamples by evaluation; value of one leaf after reading, from C115 |
| C125 | `HDF5IO.read_builder` and what it calls, over a graph of HDF5 objects with hard members, links, reference attributes and scalar references; builders in a heap, the cache by object | everything in the cache is accessible for the relation *needs* and its needs are in the cache: so success excludes endless chains; accessibility gives a sufficient depth by well-founded induction; monotonicity in the depth; the only error of a clean file is the recursion error |
| C126, C127 | with C125 | invariant: the builder of every cached object is the image of the object under the final cache, stable because the needs are already cached; distinctness: the builder returned is always new |
| C128 | with C125 | the keys of the cache are the transitive closure of *needs* from the root |
| C129 | writing a tree of builders (`H5Write`): a file as a map from paths to objects, the written set, the queue of calls | traversal refines a flat list of entries and a list of calls (mutual induction over trees); the queue applies every call in any order; lookups per node |
| C130 | with C129 | the queue: each call fails at most twice; success iff each target is an object; paths of builders by parents or location |
| C131 | with C129 | invariant of every step, also after errors: objects stay, content and attributes only change where allowed |
| C132 | with C129 | the traversal on a file with content, from the same induction with a set of written builders; lookups per node |
| C133 | with C129 | C132 on the result of C129 |
| C134 | with C129 | from C129; errors are never undone, marks only grow by builders that were visited |
| C135 | composition of `H5Write` and `H5Read` | the file that was written, opened as one to be read, meets the hypotheses of C125 and C127 |
| C136 | `SpecCache.orderDeps` | invariant of the depth-first search: what has been taken out and not yet ordered reaches the current namespace |
| C137 | `SpecCache.getNamespaces` on the sorted versions | last of a sorted list, erasing the placeholders; composed with C138 |
| C138 | `SpecCache.cacheSpec` | induction over the namespaces of the catalog |
| C139 | `SpecCache.load` over `Namespace.load` | C136 and C137 with the frame lemmas of the catalog |
| C140 | `SpecCopy.copySpec` over `Spec.resolve` | resolving is idempotent: a resolved spec absorbs its parent, by induction over the depth; what is copied is read off the sets of new and overridden names |
| C141 | same | same |
| C142 | `SpecCopy.copyKeys` | induction over the keys |
| C143 | `SpecCopy.copyDsAttrs` over `Spec.resolveAttrs` | the sets of new and overridden attributes |
| C144 | `Names.sub1`, `Names.sub2`, `Names.convertDtName` on lists of characters | both substitutions only add underscores; induction over the words |
| C145 | `Names.fields`, `Names.attrNames` on trees of specs | the assignments are those of an inductive relation of paths; mutual induction over the tree |
| C146 | same | the first double underscore ends the first name; induction over the path |
| C147 | `Names.init` | the fold assigns the inverse of a dict with distinct values |
| C148 | `Names.run` over calls | induction over the history |
| C149 | `Names.gatherChain` over classes | induction over the members of all classes |
| C150 | `TableInit.popLoop`, `TableInit.checkIds`, `TableInit.init` | what the loop pops and keeps; the outermost index is the target of none |
| C151 | `TableInit.makeIds` | case analysis |
| C152 | `TableInit.nameLoop` | closed form by induction, generalised over the names skipped and kept |
| C153 | `TableInit.orderLoop`, `TableInit.pick` | an invariant over the columns seen; the blocks depend only on the set of columns |
| C154 | `TableInit.attach`, `TableInit.Table.get` | an invariant over the columns seen: the outermost index so far |
| C155 | `TableInit.Table.copy` | the columns of a table meet the conditions of the construction |
| C156 | `Hier.linkLoop`, `Hier.linkedTables` | a worklist invariant with the number of tables not yet listed as measure; an induction principle for what is listed |
| C157 | `Hier.toHier` | induction on the hierarchy; `loc` selects the block of one row since ids are unique |
| C158 | `Hier.toHier`, `Hier.levelNames` | induction on the hierarchy |
| C159 | `Hier.flattenLoop`, `Hier.colName`, `Hier.dropIds` | one pass keeps the leaves and lowers the depth |
| C160 | `Hier.fromFrame`, `Hier.needsIndex`, `Hier.buildColumn` | prefix sums; slices of a concatenation |
| C161 | `ClassGen.Cls.args`, `ClassGen.optional` | induction on the chain of classes |
| C162 | `ClassGen.new`, `ClassGen.init`, `ClassGen.body` | induction on the chain of classes with the class of the object kept general |
| C163 | `ClassGen.Cls.fieldNames` | induction on the chain of classes |
| C164 | `ClassGen.new`, `ClassGen.callPost` | induction on the chain of classes |
| C165 | `ClassGen.typeOfDtype`, `ClassGen.takes` | membership in a table |
| C166 | `FileIO.step`, `FileIO.run`, `FileIO.openFile` | one operation touches a file in three ways; induction on the history |
| C167 | `FileIO.read`, `FileIO.reopen` | cases |
| C168 | `FileIO.tstep`, `FileIO.getWritten` | invariant: the marks are those of live builders |
| C169 | `FileIO.write`, `FileIO.writeHerd` | cases |
| C170 | `FileIO.export`, `FileIO.exportBuilder` | cases |
| C171 | `Changes.step`, `Changes.run`, `Changes.export` | invariant: what is not marked is as its builder; induction on the history and on the tree |
| C172 | `DataIO.new`, `DataIO.checkOpts`, `DataIO.available` | cases |
| C173 | `DataIO.paramsWith`, `DataIO.writes` | invariant: writing keeps the options; induction on the writes |
| C174 | `DataIO.writeDataset`, `DataIO.chunkedSettings` | cases; induction on the writes |
| C175 | `DataIO.copyOf`, `DataIO.writeDataset` | cases |
| C176 | `NsWrite.export`, `NsWrite.exportSpec`, `NsWrite.readerOf`, `Namespace.load` | invariant: the catalog while loading is that of the included namespaces and the entries so far |
| C177 | `NsWrite.step`, `NsWrite.run`, `NsWrite.exportSources` | what was taken, by induction on the calls and on the sources |
| C178 | `NsWrite.includeType`, `NsWrite.includeNs` | induction on the calls |
| C179 | `Rows.addRow`, `Rows.Tbl.cell`, `Rows.Tbl.col`, `Rows.Tbl.which`, `Rows.run` | invariant: every row fits the columns; stored rows are a prefix of later ones |
| C180 | `Rows.newRow`, `Rows.getRow`, `Rows.step` | invariant: cached objects are those of their row |
| C181 | `Rows.fromFrame`, `Rows.toFrame` | induction on the columns; rounding of small integers is exact |
| C182 | `Rows.derive`, `Rows.construct` | induction on the chain of classes from its end |
| C183 | `Parents.construct`, `Parents.adopt`, `Parents.proxyB`, `Parents.proxyC` | invariant of construction: the parent is the right container, or a proxy as long as that is not made |
| C184 | `Parents.construct`, `Parents.proxyC`, `Parents.resolve` | the same invariant; induction on the depth for locations |
| C185 | `RefData.refItem`, `RefData.regItem`, `RefData.tblItem`, `RefData.invert` | pointwise relation of slices, lists and iteration with single indices, by induction on the positions |
| C186 | `RefData.append` | direct, from the item that is read afterwards |
| C187 | `RefData.queried`, `Arrays.sortedArray` | from the specification of the binary search; the positions are an interval |
| C188 | `Nested.get` | refinement of a relation between rows and frames that does not sort or look up, by induction on the depth; a rank of the tables for success, a closed set of rows for failure |
| C189 | `Nested.get`, `Nested.cellAt` | both sides show the same rows and the relation determines the frame |
| C190 | `Nested.regionToDataframe`, `Nested.regionAt` | as C189 |
| C191 | `Nested.getIndex` | the table with regions taken as numbers is a table without regions, to which C188 applies |
| C192 | `Share.registerGen`, `Share.mergeGens`, `Share.genFor` | invariant of histories (no repetition, defaults present) and the position of the last registrations; closed form of a merge |
| C193 | `Share.getTypeMapList` | induction on the extensions, with the lemmas about registrations of C101 |
| C194 | `Share.step` | refinement: the catalogs in a heap of shared objects simulate the catalogs of `Verif.Namespace`, with a frame condition on the objects of the others |
| C195 | `AlignedGet.rowsAt`, `AlignedGet.colnames` | the frames of the tables (C191) joined, one column after the other; totality from C191_total |
| C196 | `AlignedGet.toDataframeA` | the same with expanded frames (C188); alignment by label as a choice of rows |
| C197 | `AlignedGet.getItem` | looking up the two names in the list of all columns; witnesses for the differences |
| C198 | `AlignedGet.rowOfTable` | the columns of one table are those kept by a filter on the first name; uniqueness of what a frame shows |
| C199 | `AlignedGet.containsPair`, `AlignedGet.containsName` | case analysis; the violations hold for all tables |
| C200 | `Same.cmp` | independent relation `Near` on values; induction on the fuel over all the functions; equality from it without floats |
| C201 | `Same.cmp` | induction on the conformance of the value, with a bound on the depth |
| C202 | `Same.cmp` | from C200 and C201; witnesses for floats |
| C203 | `Same.mixinValidate` | case analysis; the violation holds for all files |
| C204 | `HerdZip.toZip`, `fromZip` | file systems as functions; invariant of reachable tables gives that the checks pass; the violation holds for all paths with a directory |
| C205 | `HerdZip.readText` | case analysis on the guessed type of the column: an exact characterisation |
| C206 | `HerdZip.toZip` | folds of writes and removals |
| C207 | `HerdZip.differences` | case analysis; witness histories |
| C208 | `HerdZip.addRefContainer` | induction over the calls; C30 for each of them |
| C209 | `HerdZip.getObjectType` | C76 and uniqueness of the objects |
| C210 | `Subspec.addAll`, `getDataType` | invariant: the tables hold what is documented for the specs added so far; acceptance as a pairwise condition, so permutations follow |
| C211 | `Subspec.addAll` | the same invariant for the tables of names |
| C212 | `Subspec.getSubspec` | the invariant; induction over the hierarchy |
| C213 | `NsCache.cacheNs` | a conversion that succeeds is a run of `NsWrite` operations all of which are taken; then C177 |
| C214 | `NsCache.cacheNs`, `Namespace.load` | the same, then C176 |
| C215 | `NsCache.cacheNs` | induction over schema and types: nothing can raise; witnesses for the failures |
| C216 | `TypeTree.fullHier` | induction over the depth; chains of parents by induction |
| C217 | `VErr.eq`, `VErr.eqStr` | cut the text at the first bracket or colon; witnesses for the failures |
| C218 | `VErr.removeDuplicates` | invariant of the fold: the result is the errors without an earlier equal one |
| C219 | `VErr.missing` … `VErr.expectedArray` | cut the text at the first quote, bracket or blank |
| C220 | `TableFile.write`, `TableFile.read` | C155 and C153 for the columns in the order of the file; C150 and C152 without rows |
| C221 | `IsoDate.isoformat`, `IsoDate.isIso` | C222; counting colons for the offsets with seconds |
| C222 | `IsoDate.isIso` | the backtracking matcher finds the texts of the regular expression (induction), then field by field |
| C223 | `Ids.new`, `Ids.append`, `Ids.extend`, `Ids.reread` | what each operation adds to a list; induction over the history |
| C224 | `Sparse.toUint`, `Sparse.ofList` | reduction modulo the number of values is the identity on numbers that fit |
| C225 | `Sparse.new`, `Sparse.ofDense`, `Sparse.ofParts` | the entries of a row are a segment of the entries of all rows; sum over a row by induction |
| C226 | `Monitor.next`, `Monitor.final` | invariant: the count and what is left are the whole |
| C227 | `TypeConf.step`, `Terms.load` | relation of the maps with the family of the global map, by induction over the history |
| C228 | `Builders.items`, `Builders.viewKeys`, `Builders.contains`, `Builders.getD` | invariant of histories: names of different classes are different |
| C229 | `BuilderEq.passes`, `BuilderEq.eqB` | mutual induction over the tree; lists without repetition of equal length |
| C230 | `Html.field`, `Html.dictNodes`, `Html.listNodes` | mutual induction over values and fields: rows of the page and evaluation of access codes |
| C231 | `Html.render` and a reader of tags | each piece is balanced and shows its text; composition of pieces |
| C232 | `Hooks.dir`, `Hooks.resolve`, `Hooks.runPre`, `Hooks.runPost` | strictly sorted names; the first class that has a name; names with the class in front are injective |
| C233 | `Raises.escape`, `Raises.parse`, `Raises.search` | reading an escaped message gives its characters, by induction |
| C234 | `ReadIo.setIo`, `ReadIo.getFrom` | invariant of histories; induction over the chain of parents |
| C235 | `Repr.repr`, `Repr.loop`, `Repr.fieldText` | induction over the sorted names; each name shown iff its value is not empty |
| C236 | `Repr.smart`, `Repr.block`, `Repr.rows`, `Repr.sortKeys` | the lines are an intercalation; sorting is a permutation |
| C237 | `Repr.repr` | induction over the nesting, with a rank of containers |
| C238 | `Wrap.len`, `Wrap.get`, `Wrap.truth`, `Wrap.run` | invariant of histories: what has data has no shape of its own |
| C239 | `Wrap.append`, `Wrap.extend`, `Wrap.run` | induction over histories with the values added so far |
| C240 | `Wrap.new`, `Wrap.setData`, `Wrap.run` | case analysis; induction over histories |
| C241 | `SpecDict.buildAttr`, `SpecDict.buildDs`, `SpecDict.buildGroup` | mutual induction over the nesting; what is built is a fixed point; attributes by folding |
| C242 | `SpecDict.newBase`, `SpecDict.newDs`, `SpecDict.buildLink` | case analysis of what is accepted |
| C243 | `SpecDict.buildAttr` | case analysis of what is accepted |
| C244 | `SpecDict.checkShape` | case analysis; numbers of dimensions defined on their own |
| C245 | `SpecDict.checkTy`, `SpecDict.buildCol`, `SpecDict.buildDsTy` | the accepted names are those of the validator |
| C246 | `SpecDict.addSubs`, `SpecDict.addLinks`, `SpecDict.newGroup` | invariant of the table of types over the list of parts |
| C247 | `Orphan.validate`, `Orphan.setParent` | the walks along parents give the ancestors (induction on steps); trees defined by a relation |
| C248 | `Orphan.run` | parents only grow along a history, so what is apart in the end was apart before |
| C249 | `Orphan.setParent`, `Orphan.place` | case analysis; walks end if the depth is bounded |
| C250 | `AllObj.allObjects`, `AllObj.allChildren` | the loop with the dictionary refines that of C27; the dictionary lists what was visited (invariant) |
| C251 | `AllObj.objLoop` | visited objects have distinct ids, so there are at most as many steps as objects |
| C252 | `AllObj.objectId`, `AllObj.newId`, `AllObj.run` | invariant over histories: ids below the next uuid and injective |
| C253 | `StoreType.table`, `StoreType.storeType`, `Convert.dtypes` | case analysis on the tables, for any string |
| C254 | `StoreType.helper`, `StoreType.plainBDt` | position by position along the fields; the type of a plain dataset from `Convert.resolve` |
| C255 | `StoreType.getType` | recursion on the data; parts of nested lists as an inductive relation |
| C256 | `DocShare.decorate`, `DocShare.getDocval` | lists of addresses in a heap; list lemmas along histories |
| C257 | `DocShare.run` | invariant: types in the heap are resolved, and resolving is idempotent while the names of macros are the same |
| C258 | `DocShare.resolve`, `DocShare.addMacro` | structural induction on nested types against a relation of mention |
| C259 | `SpecKeys.convertKeys`, `SpecKeys.load` | lookup lemma for moved keys; mutual induction on nested specs, along positions |
| C260 | `Delegate.get`, `Delegate.has` | induction on nested wrappers against a list of layers; induction on the limit of calls for objects that are not built |
| C261 | `Delegate.shallow`, `Delegate.deep`, `Delegate.reconstruct` | from C260 |
| C262 | `Hier.alignedForeign`, `Hier.alignedHas` | list lemmas; the order of links from C156 |
| C263 | `Collapse.collapse` | cases on indices against the set of positions each stands for |
| C106–C110 | the recursive validation of groups, datasets, links and attributes over a heap of builders | inductive relation `Conforms`, fuel induction both ways; stuck set for link cycles |

## Where the code breaks a property

Each line is a theorem `Cnn_..._fails` with a concrete state; the inputs are reachable through the public API.  The
`_partial` theorem beside it says what does hold.

(The list is generated by `tools/design.py` from the comments of those theorems.)

<!-- begin findings -->
* `Docval.C03_position_fails` — **C03 fails in full**: with `f(a, b=1, c=2)`, the call `f(10, 20, b=5)` gives `b` twice (20 by position, 5 by keyword). It is not rejected: 20 slides over to `c`.
* `Docval.C03_delivered_fails` — **C03 fails in full** (second reason): a required parameter `data` with a shape constraint, given an object without shape whose attribute `data` is a list: the function receives the list, not the object.
* `Docval.C05_dropped_fails` — **C05 fails in full**: with `allow_extra`, `f(a, b=1)` called `f(10, 20, b=5)` silently drops 20; and a function without declared parameters drops all extra keywords.
* `Docval.C06_empty_shape_fails` — The excluded case of C06: an empty declared shape makes every call with a shaped value raise IndexError.
* `ChunkStream.C10_same_dataset_fails` — **C10 (distinctness is needed).** If one dataset is queued twice, the content depends on the interleaving: it is not that of either draining order.
* `Ragged.C11_array_target_fails` — **C11 fails for numpy targets**: extending a one-dimensional numpy array never appends — it either raises or replaces the column's data by a two-row array (so rows are no longer what was added).
* `Ragged.C11_empty_on_disk_fails` — **C11 fails for HDF5 targets and empty vectors**: an empty vector cannot be added to a non-empty on-disk column.
* `Ragged.C12_rejected_fails` — **C12 fails for on-disk indexes**: the addition that needs wider integers is refused after the target has been extended, so the index no longer ends at the end of the target.
* `Ragged.C13_disk_fails` — **C13 fails for on-disk indexes**: after the refused addition the in-memory width has been raised, so repeating the call is accepted and the value is clipped by the on-disk type: 257 is stored as 255.
* `Table.C14_after_rejection_fails` — **C14 fails** once a rejected call is caught: `add_row` with a non-list for a ragged column leaves the id and the earlier columns longer than the ragged one.
* `Table.C16_fails` — **C16 fails** in general: (1) a value that a ragged column cannot take is discovered after the id and the values of earlier columns have been appended; (2) an optional predefined column is created before the row is rejected for another, unknown key.
* `Table.C17_rejected_children_fails` — A rejected `add_column` nevertheless leaves its column and index objects attached to the table as children and registered as indices.
* `Region.C19_empty_selection_fails` — **C19 fails** for an empty selection when the target table has a ragged column: IndexError instead of no rows.
* `Region.C20_dangling_fails` — **C20 fails** as stated without the condition on the region's values: nothing checks that they are rows of the target table, so a position within the region can raise IndexError.
* `Enum.C21_negative_index_fails` — **C21 fails** for negative indices, which are accepted and count from the end of a growing list of terms: an entry read as "a" reads as "b" after a later addition.
* `Enum.C21_many_terms_fails` — **C21 fails** beyond 2^32 terms: the width formula asks for 128-bit integers, and adding a term by name is refused with TypeError after the term has been appended to the list of terms.
* `Aligned.C22_init_fails` — **C22 fails** for the columns of the main table at construction: ids are made up for a main table whose predefined columns are empty.
* `Aligned.C22_after_rejection_fails` — **C22 fails** when a rejected row is caught: the main table has a row that the category does not.
* `Aligned.C23_category_fails` — **C23 fails**: a row that a category rejects has been added to the main table.
* `Aligned.C23_dict_fails` — **C23 fails** for the caller's dict, also when the row is accepted: the categories are gone, `id` and `enforce_unique_id` are there, and giving the same dict again is rejected.
* `Tree.C24_data_parent_fails` — **C24 fails** for `Data` parents: `x.parent = data` is accepted, but `data` does not list `x`, so that `reset_parent` raises.
* `Tree.C24_equal_children_fails` — **C24 fails** for children compared by content (`DynamicTable`): removing one of two equal children detaches it but takes the other one off the list of children.
* `Tree.C25_cycle_after_error_fails` — **C25 fails** if a raised error is ignored: making a container the parent of its own parent raises RecursionError, but only after the cycle exists.
* `Tree.C25_data_parent_fails` — **C25 fails** with a `Data` parent: a cycle comes about without any error, and `get_ancestors` does not terminate.
* `Herd.C29_foreign_key_fails` — **C29 fails** for a `Key` row of another table: it is accepted and leaves a dangling index.
* `Herd.C31_repeat_fails` — **C31 fails** for string keys: repeating a call adds a second equal row to the object-key table, and `get_object_entities` lists the entity twice.
* `Herd.C32_missing_key_fails` — **C32 fails** when the key is left out: the call raises TypeError after adding the file and the object.
* `Builders.C34_slash_name_fails` — **C34 fails** for names containing a slash: the builder is stored, but looking up its name raises KeyError.
* `Builders.C34_equal_builder_fails` — **C34 fails** by identity: a builder equal by content to one already stored is accepted but neither stored nor given a parent; the old one is found.
* `Manager.C35_prebuilt_fails` — **C35 (violated by `prebuilt`).** `prebuilt` checks nothing. Registering one builder for two containers makes `get_builder` return it for both; registering a second builder for a container leaves the first one behind, still leading to the container, so that `purge_outdated` of the modified container raises.
* `Spec.C37_kind_fails` — **C37 (violated across kinds).** The child's link `x` does not replace the parent's dataset `x`: both are present and `get_dataset('x')` returns the parent's.
* `Spec.C37_repeated_fails` — **C37 (violated by repeated names).** The constructor accepts two datasets of the same name; both stay in the list and only the last one is resolved against the parent's.
* `Spec.C37_type_fails` — **C37 (violated by `is_inherited_type`).** A type that neither child nor parent mentions is reported as inherited (and as overridden), although the documentation promises a ValueError; and a type the child uses under a name is reported as not inherited although it inherits another spec of that type.
* `Catalog.C38_stale_fails` — **C38 fails** when a parent is registered after a query: the memo keeps the old answer.
* `Catalog.C38_cycle_fails` — **C38 fails** for a cycle of types, which is accepted: `get_hierarchy` never returns.
* `Catalog.C39_rejected_fails` — **C39 fails**: a rejected registration changes the parent of the type, hence its hierarchy.
* `Catalog.C40_unregistered_fails` — **C40 fails** for a type that is only used as a parent: it has no subtypes, though it is in the hierarchy of others.
* `Catalog.C41_copy_fails` — **C41 fails** for hierarchies and source files, and registering a spec again in the copy raises KeyError.
* `Vtypes.C42_fails` — **C42 fails** for extended precision (and half precision with `numeric`): the data is rejected.
* `Vtypes.C43_date_fails` — **C43 fails** after a date field: the fields after it are not looked at.
* `Vtypes.C44_fails` — **C44 fails** for an empty list of dimensions (a scalar): IndexError.
* `Vmatch.C46_fails` — **C46 fails** for the quantity 0, where the absence of children is reported as missing, and for the spelled-out quantities (accepted by `DatasetSpec` with a default value), which are required and unlimited.
* `Vmap.C47_order_fails` — **C47 fails** when a type is registered before the one it includes: it is lost from the valid types of the latter, because registering that one empties the list.
* `Convert.C48_reported_dtype_fails` — **C48** fails for the dtype reported for the whole: it is that of the last element only. A list of a 64-bit and a 32-bit float under a `float32` spec is reported — and written — as `float32`.
* `Convert.C48_trailing_empty_fails` — The same without mixing dtypes: a trailing empty list makes the reported dtype that of the spec.
* `Convert.C49_scalar_fails` — **C49** fails for data without a shape (a number or a string where the spec wants an array): instead of a warning and no labels, TypeError.
* `Convert.C49_refined_shape_keeps_labels_fails` — A refinement of the shape that does not repeat the labels drops them.
* `SortKeys.C50_order_fails` — **C50 fails** literally: with `data_type_def` and `name` present, `name` is written before `data_type_def`, against the fixed order.
* `Arrays.C51_max_fails` — **C51 fails** at the maximum: `a <= 8` and `a == 8` raise though 8 is an element.
* `Arrays.C52_fails` — **C52 fails** for values below the start (the first element is selected by `< -1/2`, all but the last three by `< -3`), and for `==` with values beyond the end (a position outside the array is returned).
* `Terms.C53_iterator_fails` — **C53 fails** (iterators): extending with a one-shot iterator over terms is accepted and adds nothing.
* `Terms.C53_array_fails` — **C53 fails** (arrays): extending a one-dimensional array gives a two-dimensional one, and only for equal lengths.
* `Terms.C53_insert_fails` — **C53 fails** (other methods): the methods of the wrapped list are reached through the wrapper without validation.
* `Terms.C54_malformed_fails` — **C54 fails** for files without `data_types` in a namespace: the load raises after merging the namespaces before it, and the path is not recorded.
* `Namespace.C55_retry_fails` — **C55** fails: a load that fails on the second of its files cannot be repeated once that file is there, although a fresh catalog would load it: the first file counts as loaded already.
* `Spec.C56_names_fails` — **C56 (violated for other names).** Only the first letter is compared: an integer may become a date, an unsigned integer a text, a double a date, a boolean bytes; and the synonyms `short`/`int16`, `double`/`float64`, `long`/`int64` are refused for each other.
* `Shape.C57_fails` — **C57 fails**: an empty list of axes (as for two zero-dimensional arrays) raises ValueError, a too negative axis IndexError, and an undetermined shape TypeError, instead of a result.
* `Slicer.C59_single_fails` — **C59 fails** for a region of one index: its length is 1 but `slicer[0]` subscribes the element itself; and an empty region cannot be made.
* `Utils.C60_popargs_fails` — **C60 fails in full**: a refused `popargs` has already removed the names before the missing one.
* `LabelledDict.C61_callbacks_fails` — **C61 fails in full**: the value named `x==y` is added and deleted again; the deletion succeeds, the value is gone, but the remove callback was called with a (here empty) set instead of the value.
* `LabelledDict.C62_lookup_fails` — **C62 fails in full**: a value whose key contains "==" is stored but not retrievable by its key, and cannot be deleted by key if the part before "==" is the key attribute.
* `Utils.C63_is_ragged_fails` — **C63 fails in full**: `[[[1,2]],[[1,2,3]]]` is reported as not ragged (each level is only compared within one list), and so is `[[1], 2]`; neither is a rectangular array.
* `Utils.C64_forward_none_fails` — **C64 fails in full**: an explicit None for a parameter that allows None is replaced by the default.
* `GenericChunks.C65_default_chunk_fails` — **C65 fails in full**: when one item is larger than the chunk size (here 8 bytes in a chunk of 1 byte) the scale factor is 0, the default chunk shape has empty axes, and no default buffer shape is accepted although the array and the parameters are legal.
* `Ragged.C67_first_from_end_fails` — **C67 fails** for the first row addressed from the end (row `-n` of a column with `n ≥ 1` rows raises IndexError) and for empty lists.
* `Table.C68_mixed_ids_fails` — **C68 fails** when ids are mixed: an automatic id repeats an id given earlier.
* `Multi.C72_detach_fails` — The names with `==`: deleting the object named `name==b` succeeds and takes it out of the dictionary, but the object that loses its parent is the one named `b`, which stays in the dictionary.
* `Builders.C73_explicit_parent_fails` — **C73 fails** for a sub-builder created with an explicit parent and added after the parent's source was set: it is left without a source.
* `Once.C74_rejected_fails` — **C74 fails** for values that are not containers: the assignment to a child field raises but the value has been stored (and can never be replaced).
* `Herd.C75_negative_index_fails` — **C75 fails** for negative indices.
* `Herd.C76_empty_fails` — **C76 fails** for an empty HERD: `to_dataframe` raises instead of returning an empty table.
* `Herd.C77_unknown_object_fails` — **C77 fails** for a container that is not in the tables: AttributeError instead of the documented ValueError.
* `Herd.C77_two_keys_fails` — **C77 fails** when an object uses two keys of one name (the second added as a `Key` row): a string key goes on to the last one, while `get_key` returns the first, which does not have the new entity.
* `Aligned.C78_name_clash_fails` — **C78 fails** when the main table has a column with the name of a category: no row is ever accepted.
* `Aligned.C78_id_in_data_fails` — **C78 fails** for an `id` given inside the data dict: it is dropped without notice.
* `Arrays.C79_list_fails` — **C79 fails** for a list whose values are neighbours in the array: only the first is selected.
* `Arrays.C79_range_fails` — **C79 fails** for a range without elements (a position is returned), and for `!=` with a value that is absent or repeated.
* `Vtypes.C80_fails` — **C80 fails** for dates: a string in ISO format is accepted for `isodatetime` and rejected for its synonym `datetime`.
* `Vmatch.C81_fails` — **C81 fails** when sub-specs overlap: a `Derived` and a `Base` child for the sub-specs "one `Base`" and "one `Derived`" are reported in one order (the greedy choice gives the `Derived` child to the first sub-spec), though an assignment exists, which is found in the other order.
* `Terms.C82_fails` — **C82 fails** otherwise: a permissible value whose prefix is not declared is not valid, and one without a meaning raises.
* `Spec.C85_dtype_fails` — **C85 (violated for the other properties).** A dataset spec that overrides the parent's without repeating its dtype has no dtype (any data is accepted), and one with a simple dtype may replace any other: `text` by `float`, and a compound dtype by a simple one.
* `Convert.C86_values_kept_fails` — **C86** fails with a warning: the dtype chosen need not hold the values of the given one. `int16` goes to `uint16` and `-1` with it.
* `Convert.C87_ascii_injective_fails` — **C87** fails: under an ascii spec different strings are written as the same bytes, without a warning.
* `Convert.C87_number_array_refused_fails` — … but an array of numbers is turned into text without complaint.
* `Convert.C88_numeric_refuses_fails` — **C88** fails for lists: `'numeric'` looks at the first element only, so a list with a string in it is accepted.
* `Namespace.C90_include_loaded_fails` — **C90** fails for namespaces as such: one with a type that may contain itself is loaded without complaint, but another namespace cannot include it.
* `Namespace.C91_report_complete_fails` — **C91** fails: the report of included types names, for each namespace, only what the last entry for it brought in. `A` is included first, then `B`; only `B` is reported.
* `Namespace.C93_partial_file_fails` — **C93** fails: asking for some of the types of a file is refused with a TypeError.
* `Namespace.C94_same_file_name_fails` — **C94** fails: two namespaces from different directories cannot both be loaded if each has a file of the same name, though each can be loaded alone.
* `Namespace.C95_merge_atomic_fails` — **C95** fails: merging a catalog that shares a namespace raises, but what comes before it has been added.
* `TypeMap.C96_attr_fails` — The `namespace`/`data_type` attributes of a class need not name the type its objects are written as: loading a namespace that includes an already registered type moves the attributes to the new namespace.
* `TypeMap.C98_total_fails` — So a type with an attribute that refers to an object of the same type has a valid specification but no class.
* `TypeMap.C99_late_registration_fails` — Registering a class for the source type after the new namespace was loaded with a class leaves two different classes for what is one type.
* `TypeMap.C100_late_map_fails` — Registering a mapper class after the first object of the class was mapped has no effect.
* `TypeMap.C100_two_types_fails` — A class registered for two types has one mapper: a builder of the second type is handled with the specification of the first.
* `TypeMap.C101_same_types_fails` — In general the copy may write objects of a class as a different type: class 3 was registered for `Alien` of `ext` first and for `Sub` of `core` later; the copy visits `core` first.
* `TypeMap.C101_copy_fails` — Copying a type map can raise: registering a mapper for a class and then another class for its type leaves a mapper whose class the copy does not know.
* `TypeMap.C102_roundtrip_fails` — When another class is registered for the type, objects of the first class are still written as that type and come back as the second class.
* `TypeMap.C103_only_classes_fails` — `get_container_classes` also lists objects that are no classes: the placeholders for types taken from another namespace, even after they were replaced by classes.
* `Manager.C104_leftover_fails` — **C104 (violated).** A root build that raises leaves the calls it queued behind; the next root build, of an unrelated container, makes them, and raises although building that container alone succeeds.
* `Manager.C104_lost_fails` — **C104 (violated).** A root build raises because the target of a reference has no builder. The user builds the target and repeats the build: it returns the cached builder, and the call that sets the reference is not made again.
* `Manager.C105_modified_fails` — **C105 (violated).** A container with a builder from before (read from a file) that was modified since is built anew each time it is met, as its builder does not become active: its mapper runs twice in one root build and its references are queued twice. A new container in the same place is built once.
* `Validate.C106_complete_fails` — **C106 fails** (completeness) where sub-specs overlap: the group holds one `Base` and one `Derived`, as the spec asks, but the `Derived`, which comes first, is counted as the `Base`.
* `Validate.C108_cycle_fails` — **C108 fails** for cycles of links, which files may contain: a group whose link leads back to itself makes validation exhaust the stack, however deep.
* `Validate.C108_raises_fails` — **C108 fails**: validation may raise instead of reporting: a dataset where the spec has a group of that name (TypeError); a child of a type that is not in the namespace (ValueError); an attribute spec without a dtype (TypeError); an empty table with compound dtype (IndexError); an array shape with no dimensions (IndexError); a number for a compound dtype (ValueError).
* `Validate.C109_fails` — **C109 fails**: a dataset of length 3 that can grow is reported as of the wrong shape for a spec of length 3; a reference to a builder of the right type is reported as of the wrong type as long as it is not read from a file; and a list of two references is reported as of the wrong shape for a spec of length 2.
* `Validate.C110_value_fails` — **C110 fails** for every spec and builder: the fixed value of an attribute is not looked at.
* `Validate.C110_elements_fails` — **C110 fails** for lists: all elements but the first may be anything.
* `Multi.C111_shared_fails` — **C111 fails** for an object in two dictionaries (added to one container, then linked from another): removing it from the first leaves it in the second without a parent; and `reset_parent` leaves it in its dictionary.
* `Multi.C112_rejected_fails` — **C112 fails**: an object rejected because of its name has become a child of the container: it has it as parent, is listed among its children, and cannot be given to another container; and the objects before it in a list have been added.
* `Multi.C113_list_fails` — **C113 fails**: the elements of a list are not checked; an object of another type is stored and found.
* `Multi.C114_replace_fails` — **C114 fails**: an assignment adds to what is there instead of replacing it; assigning the empty list or `None` changes nothing; assigning the dictionary to itself raises.
* `Mapper.C115_empty_list_fails` — **C115 fails** as stated: an empty collection is read back as nothing.
* `Mapper.C115_dataset_attribute_fails` — **C115 fails** as stated: the attributes of a dataset without data type are lost if there is no data.
* `Mapper.C115_converted_fails` — **C115 fails** as stated: a value that is converted on the way is read back converted.
* `Mapper.C115_fixed_value_fails` — **C115 fails** as stated: an attribute whose value the specification fixes is stored with that value, whatever the container holds.
* `Mapper.C117_added_attribute_fails` — **C117 fails** for attributes that a specification adds where it includes a type: the attribute `data2` of the device is not written, although the container has an attribute of that name and holds a value, because the mapper of the type does not know the added specification.
* `Mapper.C118_name_clash_fails` — **C118 fails** when a child has the name of a group without data type: there is nothing to store in the group, yet a group of its name is written, that of the child; and if there is something to store, it is written into the child.
* `Mapper.C120_zero_fails` — **C120 fails** for the quantity 0: nothing is there, as it should, and the build warns that it is missing.
* `Mapper.C121_absent_link_fails` — **C121 fails**: the optional links `device` and `spare` have the same target type, `spare` is left empty and `device` leads to `d`. Read back, `spare` leads to `d` as well.
* `Mapper.C122_order_fails` — **C122 fails**: a linked column before an own column comes back after it.
* `Mapper.C123_named_child_fails` — **C123 fails**: a child whose name is not the name in the specification is written, under its own name, and not found again: the attribute is read back as nothing.
* `Mapper.C124_members_fails` — **C124 fails**: `c2` of type `Col2` is held by the attribute for `Col2`; read back, it is also held by the attribute for the base type `Col`.
* `H5Read.C125_self_reference_fails` — A table that has a region column for its own rows, which refers to the table by the attribute `table`, exceeds every recursion limit.
* `H5Read.C125_name_clash_fails` — A group with an attribute and a member of the same name, which HDF5 allows, makes the whole file unreadable.
* `H5Read.C125_group_reference_fails` — A scalar dataset that refers to a group makes the whole file unreadable.
* `H5Read.C126_scalar_reference_fails` — A scalar dataset that refers to a dataset already read gets another builder than the group that holds it: the reference and the member are different builders, and become different containers.
* `H5Read.C127_link_lost_fails` — Of two links in one group to objects that have the same name in different groups, the first is lost, silently.
* `H5Read.C128_root_fails` — The root can never be looked up, so that an element of a dataset of references that refers to it cannot be resolved.
* `H5Write.C129_all_or_nothing_fails` — A write that fails leaves what it has written in the file.
* `H5Write.C130_orphan_fails` — A reference to a builder that has no parent, and is nowhere in the file, is written as a reference to the root.
* `H5Write.C130_other_file_fails` — A reference to a builder of another file is written as a reference to whatever is at that path in this file.
* `H5Write.C131_references_fails` — A new dataset of references takes the place of another dataset of that name, without an error; a new dataset of data does not.
* `H5Write.C132_dataset_attributes_fails` — An attribute that is added to a group is written when the file is written again; one that is added to a dataset is not, and there is no error.
* `H5Write.C133_retry_fails` — When a write fails because a reference leads nowhere, and is done again with what was missing, there is no error, but the dataset of references has no references and no attributes.
* `H5Write.C134_dangling_fails` — A link to something that is not in the file is written without an error, while a reference to it is not; and a link to a builder that has no parent becomes a link to the root.
* `H5RoundTrip.C135_self_reference_fails` — A tree in which something refers to a group that holds it is written without an error, and the file cannot be read, with whatever recursion limit.
* `H5RoundTrip.C135_group_reference_fails` — A scalar dataset that refers to a group is written without an error, and the file cannot be read.
* `H5RoundTrip.C135_link_lost_fails` — Of two links in one group to builders of the same name, both are written, and one comes back.
* `SpecCache.C137_latest_fails` — **C137** fails: the version of a namespace that is loaded is the last in alphabetical order: of 9.0.0 and 10.0.0 the older one.
* `SpecCache.C137_empty_group_fails` — **C137** fails: a namespace without any version hides the versions of all the others.
* `SpecCache.C137_written_version_fails` — **C137** fails: a file that is written with version 10.0.0 of a namespace is read with version 9.0.0, if that was in the file before.
* `SpecCache.C138_changed_fails` — **C138** fails: a namespace that was changed without a change of its version is not cached: the file keeps the old specs, with which the data just written may not agree.
* `SpecCache.C138_broken_off_fails` — **C138** fails: if writing the specs of a namespace breaks off, an empty group stays, and later calls take it for the namespace: they succeed and write nothing.
* `SpecCache.C139_circle_fails` — **C139** fails: namespaces that include each other can be cached but not loaded.
* `SpecCopy.C140_many_fails` — an unnamed spec with a quantity of many that the child defines again is not in the copy: the parent's is read
* `SpecCopy.C140_link_fails` — so is an unnamed link
* `SpecCopy.C140_attribute_fails` — a new attribute with the name of an inherited dataset is not in the copy: it is lost
* `SpecCopy.C140_target_fails` — a new unnamed link to a type of which the parent has an unnamed dataset is lost
* `SpecCopy.C140_self_fails` — a new attribute is lost if the type has the name of an inherited group that has such an attribute
* `SpecCopy.C141_typed_fails` — the copy may have what the type inherits: an unnamed spec that occurs once
* `SpecCopy.C142_value_fails` — a fixed or default value of a dataset type is not in the copy
* `Names.C144_injective_fails` — C144 fails: different types can have the same name
* `Names.C144_underscores_fails` — C144 fails: where the words of a type are separated by underscores already, another underscore is added
* `Names.C145_complete_fails` — C145 fails: of two specs with one name only the last is named, and the other one is mapped to no attribute: an attribute and a dataset, groups and links of one type, a nested spec and another one
* `Names.C146_underscores_fails` — C146 fails without the condition on the names
* `Names.C147_shared_fails` — C147 fails: a spec object used at two places is mapped to the last of its names only, although both names are mapped to it
* `Names.C148_unmap_fails` — C148 fails: after `unmap` the attribute and the constructor argument are still mapped to the spec, and after `map_attr` with another name the old attribute is
* `Names.C148_taken_fails` — C148 fails: if a spec is mapped to the attribute of another one, both specs have the attribute
* `Names.C149_override_fails` — C149 fails: a method that overrides a decorated one without the decorator is not used; one decorated for another argument is used for that, but the old one stays in use for the old argument
* `Names.C149_bases_fails` — C149 fails: a class with two bases uses the functions of the first base only
* `TableInit.C150_iterator_fails` — the data given as an iterator before its index are rejected, after it accepted
* `TableInit.C150_same_name_fails` — a column indexed among the columns only by name: the column that is found has a different length, and is not among the columns
* `TableInit.C150_ragged_enum_fails` — an `EnumData` with an index, in the order in which a file lists its columns: the index is lost, the column has more rows than there are ids
* `TableInit.C152_elements_fails` — the elements of an `EnumData` that are not among the columns are not added if no names are given, though they are if names are given
* `TableInit.C153_unnamed_fails` — a column that is not named is dropped without an error
* `TableInit.C153_ragged_enum_fails` — with an index of an `EnumData`, the order of the columns decides whether the index or the elements are lost
* `TableInit.C154_inner_index_fails` — the inner one of two indices is not found by its name: the outer one is found instead
* `TableInit.C155_shared_fails` — two `EnumData` with the same elements: a table that cannot be copied
* `Hier.C156_no_table_fails` — a region column without a table: the search fails
* `Hier.C156_aligned_fails` — category tables of an aligned table that is reached through a column are not searched: table 1 has the category 2 with a region column
* `Hier.C157_dropped_fails` — a row of the first table without references does not appear in the frame
* `Hier.C157_empty_middle_fails` — a row without references in a table in the middle: KeyError
* `Hier.C157_same_id_fails` — two rows with the same id in a table in the middle: a reference to one of them gives the rows of both
* `Hier.C157_nested_index_fails` — a region column with two indices: AttributeError
* `Hier.C159_ambiguous_fails` — labels cut to their last level need not differ any more
* `Hier.C160_empty_fails` — a data frame without rows: IndexError
* `Hier.C160_mixed_fails` — the first cell decides: a list after a value is kept as it is, a value after a list is an error
* `Hier.C160_described_fails` — a description of the column without `index` makes lists of different lengths a column without an index
* `ClassGen.C161_required_fails` — a required field may be left out if the definition of the type itself has quantity `?` or `*`
* `ClassGen.C161_override_fails` — a type that fixes the value of an attribute of its base is ignored: the constructor takes another value
* `ClassGen.C162_default_fails` — a default that the type of its argument does not take: the class can be made without the argument, a class derived from it cannot
* `ClassGen.C162_name_fails` — the name fixed by a derived type is ignored if the base has a fixed name
* `ClassGen.C162_single_fails` — with the generators of `hdmf.common` a single container for a field of many is refused, though the argument takes it
* `ClassGen.C162_readonly_fails` — a field called like a property of `Container` that cannot be set
* `ClassGen.C163_mixed_fails` — fields of many containers and others on top of a class that has only others: `__fields__` lacks those of the base
* `ClassGen.C164_once_fails` — an object of a derived class: two calls, the first before the fields of the class are set
* `ClassGen.C164_skip_fails` — with fields of many containers, the call can be skipped only with the generators of `hdmf.common`
* `ClassGen.C165_defined_fails` — valid dtypes without a type: no class can be generated
* `ClassGen.C165_precision_fails` — a field of 32 bits takes a NumPy integer of 8 bits, and `True`; one of 64 bits does not take a Python integer
* `FileIO.C167_stale_fails` — an object that found a file without values does not see what has been written to it since, not even with the same object
* `FileIO.C167_closed_fails` — reading a file that has been closed gives `None`, without an error
* `FileIO.C167_reopen_fails` — `open` does not open a file again that has been closed
* `FileIO.C168_reused_fails` — a builder made where one was that has been written and dropped is taken for written
* `FileIO.C169_failed_fails` — a container that cannot be built: the HERD file is replaced, the file is not
* `FileIO.C169_ignored_fails` — a HERD given to `write` is ignored if there is no path
* `FileIO.C170_stale_fails` — the export of a source that has been read before writes what was in it then
* `Changes.C171_set_fails` — an attribute that is set after reading is not exported, nor the data of a dataset
* `DataIO.C172_later_fails` — without data there must be a shape: a wrapper to which the data are given later, as for `Data.set_dataio`, cannot be made
* `DataIO.C172_scalar_fails` — a scalar dataset cannot be set up empty
* `DataIO.C172_dtype_fails` — a dtype given as a string, which the signature takes, is refused
* `DataIO.C172_opts_fails` — options of a compression that is not given are accepted
* `DataIO.C173_plugin_fails` — the wrapper for converted data cannot be made if the filter must be loaded, though the one given could
* `DataIO.C174_empty_twice_fails` — a wrapper without data can be written once only
* `DataIO.C174_dtype_fails` — an iterator in a builder that gives no type: the type of its values is not used, so that `h5py` takes its default, `float32`
* `DataIO.C174_reused_fails` — an iterator that has been written once is written with the type of that builder, also for another one
* `DataIO.C175_settings_fails` — a copy is written without the options of the wrapper
* `DataIO.C175_empty_fails` — a copy of a wrapper without data cannot be written
* `NsWrite.C176_sources_fails` — specs added in an order in which each needs only earlier types, but to two sources in turn: the namespace is exported and cannot be loaded
* `NsWrite.C176_clash_fails` — a type with the name of one that is included is added and exported, and cannot be loaded
* `NsWrite.C176_untyped_fails` — a spec that defines no type is added and exported, and cannot be loaded
* `NsWrite.C176_same_source_fails` — two namespaces whose sources have the same name, in different directories, cannot both be loaded
* `NsWrite.C177_title_fails` — the title of a source is its `doc`, or `None`
* `NsWrite.C177_empty_source_fails` — a source that was added without types makes an export fail; the files of the sources before it have been written
* `NsWrite.C177_path_fails` — the namespace replaces a source of the same name
* `NsWrite.C177_name_fails` — a name that cannot be used is found out only when the spec files have been written
* `NsWrite.C177_refused_fails` — a spec added with a source that is refused stays registered, and cannot be added with another source then
* `NsWrite.C178_whole_fails` — a namespace that was included as a whole is included in part once a type of it is asked for
* `Rows.C179_unknown_column_fails` — **C179** fails for a column that does not exist: `t['nope']` is a KeyError, `t['nope', 0]` a TypeError.
* `Rows.C179_which_row_fails` — **C179** fails for queries with a Row object: `which(who=row)` is an AttributeError, although `add_row(who=row)` is taken; only with the index it works.
* `Rows.C179_init_fails` — **C179** fails for data given to the constructor: rows of the wrong length and kind are taken, and reading the column is an IndexError.
* `Rows.C179_not_list_fails` — **C179** fails for data that are not a list: no row can be added.
* `Rows.C180_negative_fails` — **C180** fails for negative indices: `t.row[-1]` has index -1, is not equal to the object of the last row, and stays the same when rows are added.
* `Rows.C180_row_column_fails` — **C180** fails for a column that takes Row objects only: the row is stored, but can not be read as an object, since the index is not a Row.
* `Rows.C180_no_table_fails` — **C180** fails for a Row that is constructed without a table, although the argument is optional.
* `Rows.C180_detached_fails` — **C180** fails if the index is given, the table or a value is set: the object then says it is a row which the table does not have, or which is different there.
* `Rows.C181_extra_fails` — **C181** fails for `extra_ok`: a frame with another column is refused all the same.
* `Rows.C181_large_fails` — **C181** fails for large integers next to floats: 2^53 + 1 becomes 2^53.
* `Rows.C182_derived_fails` — **C182** fails for any class derived from one that can be used, with columns of its own or without.
* `Parents.C183_external_fails` — **C183** the parent stays a proxy if the container in which it is was not constructed, as for external links.
* `Parents.C183_same_name_fails` — **C183** fails for containers of one type and name in two groups without type of the same container: the parent of what is in one of them may become the other, if there is a link to it there.
* `Parents.C183_renamed_fails` — **C183** fails for a container whose class gives it another name: what is in it keeps a proxy as parent and is not among its children; no error is raised.
* `Parents.C183_other_type_fails` — **C183** and for a container whose class is registered for another type.
* `Parents.C184_resolve_fails` — **C184** fails: if no candidate fits, `resolve` raises a TypeError instead of the ValueError that it means to raise.
* `RefData.C185_two_indices_fails` — **C185** fails for datasets with two axes: `d[i, j]` is taken as `d[[i, j]]` and raises an error for all i and j.
* `RefData.C185_rows_fails` — **C185** and slices of several rows of such a dataset can not be read either: only what is empty is returned.
* `RefData.C185_region_builder_fails` — **C185** fails for regions of builders, for every index.
* `RefData.C185_region_slice_fails` — **C185** and for slices and lists of indices of regions.
* `RefData.C185_region_iter_fails` — **C185** and iteration over regions gives whole containers.
* `RefData.C185_invert_fails` — **C185** fails: each call of `invert` makes a new object.
* `RefData.C186_written_fails` — **C186** fails for a container written with this object: it is appended, but the item can not be read.
* `RefData.C186_other_file_fails` — **C186** fails for a container of another file: a reference to what has the same path in this one is appended.
* `RefData.C187_max_fails` — **C187** fails at and above the greatest element, where an error is raised.
* `RefData.C187_absent_fails` — **C187** fails for a value that is not there: `ds[ds == v]` gives all elements, `ds[ds != v]` an error.
* `RefData.C187_stale_fails` — **C187** fails if the elements change: a query gives what it found first.
* `Nested.C188_self_fails` — **C188**, violated: a table with a region into itself cannot be turned into a data frame at all — however deep the recursion is allowed to go, it ends in a `RecursionError` — although all its entries are numbers of existing rows.
* `Nested.C188_empty_cell_fails` — **C188**, violated: a row with an empty cell of a ragged region cannot be read if the table referred to has a ragged column (IndexError), although there is a frame that shows it, and so the whole table cannot be turned into a data frame.
* `Nested.C190_empty_fails` — **C190**, violated: for a region without entries into a table with a ragged column, `region.to_dataframe()` is an empty frame and `region[:]` raises IndexError.
* `Share.C192_merge_fails` — The package's type map has a generator for tables (5). After merging a new type map into it, a column of a generated table class is no longer given to that generator.
* `Share.C192_self_fails` — `get_type_map(extensions=t)` merges a type map with itself while its list of generators is being iterated over: the order changes, and `MCIClassGenerator` comes after `CustomClassGenerator`, so it is not used any more.
* `Share.C193_own_namespace_fails` — 
* `Share.C194_add_fails` — Two extensions each have a file `core.yaml`. Adding the second to a copy of the catalog with the first adds its type to what the original lists for that file.
* `Share.C194_load_fails` — A load that fails leaves the list of sources read so far behind. Loading the namespace into a copy from another file appends to that list, also for the original.
* `AlignedGet.C196_ignore_ids_fails` — **C196** fails: with other ids `to_dataframe(ignore_category_ids=True)` pairs rows of the main table with other rows of the category than `to_dataframe()` does.
* `AlignedGet.C197_region_fails` — **C197** fails for regions: of the ways documented to select the same cell, one gives the number of the row and the others the row.
* `AlignedGet.C197_none_fails` — **C197** fails for `None`: `table[row, None, column]` selects from the main table, as documented, but `table[row, (None, column)]` is a KeyError, for every table and row.
* `AlignedGet.C198_category_fails` — **C198** fails for a category without columns: `table[row, category]` is an array with its id, not a frame.
* `AlignedGet.C198_main_fails` — **C198** fails for a main table with one column: `table[row, table.name]` is an array, not a frame.
* `AlignedGet.C198_main_row_fails` — **C198** fails for the main table: `table[table.name, row]` and `table[None, row]` are the row of all tables, `table[row]`, and not that of the main table, whenever there is a category.
* `AlignedGet.C199_unknown_fails` — **C199** fails: for a category that does not exist `(category, column) in table` raises KeyError instead of being False, for every column.
* `AlignedGet.C199_id_fails` — **C199** fails: `(category, 'id') in table` is False for every category without such a column, though `get_colnames(include_category_tables=True)` lists it and it can be selected.
* `AlignedGet.C199_self_fails` — **C199** fails: `table.name in table` is False though `table[table.name]` works.
* `Same.C200_data_fails` — Two `Data` objects given to `assertContainerEqual` are found equal whatever data they hold.
* `Same.C200_kinds_fails` — A string passes for the list of its characters, a list for the `Data` object that holds the same, and whole numbers in arrays pass for others that are near.
* `Same.C201_dict_fails` — A container with a dictionary of containers is an error to compare, even with itself: `f1.values()[0]`.
* `Same.C201_scalar_data_fails` — A container with a `Data` object that holds a single number is an error to compare, even with itself: `len(data1)`.
* `Same.C201_bytes_fails` — With `ignore_string_to_byte`, bytes pass for the string in the elements of lists, but not in fields, and not below a `Data` object.
* `Same.C202_fails` — A float passes against the whole number it is near to, the whole number does not pass against the float; and two floats may pass in one order only, since the tolerance is relative to the second.
* `Same.C203_exported_fails` — The exported file is never validated: whatever the errors in it, none of them is raised (the file written is opened a second time).
* `HerdZip.C204_directory_fails` — **C204 fails** for every path with a directory part: whatever the tables, `from_zip` does not find what `to_zip` wrote, since the members of the zip file are named with the directory and are extracted below it; the extracted files stay.
* `HerdZip.C205_text_fails` — **C205 fails.** The key "NA" is read as the empty string; keys "007" and "12" as the integers 7 and 12; "7" beside an empty key as a float; "True" as a truth value. So the key is not found any more under its name.
* `HerdZip.C205_key_fails` — **C205 fails** for tables: one reference with the key "007", written to the current directory and read back, has the integer 7 as its key.
* `HerdZip.C206_removed_fails` — **C206 fails.** Whatever files named like the tables were in the directory are gone.
* `HerdZip.C207_entity_keys_fails` — **C207 fails.** The entity-key table is not compared: two histories of `add_ref` after which the same key stands for different entities are found equal.
* `HerdZip.C208_atomic_fails` — **C208 fails** to be all or nothing: when a term is not in its term set, the terms before it have been recorded.
* `HerdZip.C209_empty_fails` — **C209 fails** on tables without references: a ValueError instead of an empty result.
* `Subspec.C211_repeated_fails` — **C211 fails** for specs of one kind with the same name: the earlier one can not be got by name.
* `Subspec.C212_other_fails` — **C212 fails**: a builder gets a spec that is not its own: the list of the named specs of its type; the spec of its type that has another name; for a link, the spec of a group where there is one for links to the type.
* `Subspec.C212_bytes_fails` — **C212 fails** if the attribute with the namespace was read as bytes, though the type may be bytes: a TypeError for every spec and builder whose name is not that of a spec; and also if it is missing.
* `NsCache.C213_merged_fails` — sources that differ only in their ending get one dataset
* `NsCache.C214_selected_fails` — a namespace that includes only some types of another one includes all of them when it comes from the cache
* `NsCache.C214_selection_fails` — and so for every such element: the types that were asked for are not in the cache
* `NsCache.C214_both_fails` — an element with a source and a namespace is loaded as a source and cached as a namespace
* `NsCache.C215_directory_fails` — no namespace with a spec in a file of a subdirectory can be cached
* `NsCache.C215_loads_fails` — such a namespace can be loaded
* `NsCache.C215_namespace_fails` — nor can one with a source `namespace.yaml`; the dataset of the specs has been written then
* `TypeTree.C216_missing_fails` — a type whose parent is not registered is left out, and what extends it
* `TypeTree.C216_self_fails` — a type that includes itself is left out, and what extends it
* `TypeTree.C216_cycle_fails` — types in a cycle are left out; this function ends though `get_hierarchy` does not
* `VErr.C217_brackets_fails` — errors about different things are equal: with brackets in a name, one of them may have no location, or both may have different ones
* `VErr.C217_other_fails` — an error is equal to a text; comparing it with a list raises
* `VErr.C217_text_fails` — errors with the same text may be different, and equal ones may have different texts
* `VErr.C217_location_fails` — setting the location changes what an error is equal to
* `VErr.C218_lost_fails` — an error that is not a duplicate may be lost
* `VErr.C219_ambiguous_fails` — different errors with one text: quotes in a dtype, and brackets in a type
* `TableFile.C220_order_fails` — the order is lost: the columns b and a without rows are a and b in the table that is read; with rows they are not
* `IsoDate.C221_offset_fails` — the local mean time of Berlin: what is written does not pass validation
* `IsoDate.C222_no_date_fails` — texts that are dates of no calendar, or no texts of a date at all, are accepted
* `IsoDate.C222_other_formats_fails` — texts that are dates by ISO 8601 are not accepted
* `Ids.C223_first_fails` — a list is accepted for its first element, when it is given and when it is added
* `Ids.C223_empty_array_fails` — an empty array has no first element: an identifier that is appended to an array of floats is a float
* `Ids.C223_unsigned_fails` — unsigned integers are rejected in arrays, and accepted from iterators
* `Ids.C223_reread_fails` — identifiers from an iterator of unsigned dtype can be written, and the file cannot be read
* `Sparse.C224_empty_list_fails` — a list without elements is not an array of integers
* `Sparse.C225_columns_fails` — columns are not compared with the shape: a matrix with one column can have an element in column 5
* `Monitor.C226_abstract_fails` — the counter of the library cannot be created, whatever the data
* `Monitor.C226_not_yet_fails` — before the end `get_final_result` does not raise `NotYetExhausted`
* `Monitor.C226_for_loop_fails` — chunks that a `for` loop took are missing from the count
* `TypeConf.C227_all_maps_fails` — a configuration that is loaded through a new type map is not seen by others: it is not shared across all type maps
* `BuilderView.C228_path_fails` — a path finds a builder, and is not in the group
* `BuilderView.C228_len_fails` — the length of a group and iteration over it have nothing to do with its items
* `BuilderView.C228_slash_fails` — an attribute whose name has a slash is among the keys and cannot be looked up
* `BuilderEq.C229_dtype_fails` — datasets with different dtype, maxshape, chunks or labels are not distinguished
* `BuilderEq.C229_source_fails` — the sources of sub-builders are not compared
* `BuilderEq.C229_link_fails` — links to different builders with equal content are not distinguished
* `Html.C230_list_fails` — the second element of a list is shown with an access code that is the one of an element of the first: it gives nothing, or another value
* `Html.C230_nested_fails` — in a list of lists the access code gives a value that is not the one shown
* `Html.C230_number_fails` — a number as key is shown as a string
* `Html.C230_quote_fails` — a key with quotes has the text of two other keys
* `Html.C231_escape_fails` — a string is not escaped: its tags are tags of the page, and are not seen
* `Html.C231_quote_fails` — a name with a quote ends the attribute
* `Html.C231_break_fails` — an array in two lines has a tag that is closed and was not opened
* `Hooks.C232_order_fails` — the function of the base class runs after that of the class: the order is that of the names
* `Hooks.C232_same_name_fails` — a class with the name of its base class: the function of the base class does not run
* `Hooks.C232_dunder_fails` — a function whose name ends with underscores is not private: that of the base class does not run
* `Hooks.C232_underscore_fails` — a class whose name differs by an underscore at the beginning: the same
* `Raises.C233_newline_fails` — the match is not exact: a newline at the end is not noticed
* `ReadIo.C234_cycle_fails` — containers that are the parents of each other: the loop does not end, for any number of steps
* `ReadIo.C234_proxy_fails` — a container whose parent is a proxy has no I/O object, and asking for it is an error
* `Repr.C235_hidden_fails` — **C235 fails**: an empty table and an empty text are fields, but not shown, though an empty list is.
* `Repr.C237_cycle_fails` — **C237 fails** for two containers that are fields of each other: however deep the stack, it is exhausted.
* `Repr.C237_keys_fails` — **C237 fails** for a dictionary or a set with keys of different kinds, also inside a list, and for a value that does not know whether it is empty.
* `Wrap.C238_iterator_fails` — **C238 fails** for an iterator without a known end: it has data and is true, but has no length.
* `Wrap.C239_extend_fails` — **C239 fails** for `extend` on an array: with as many values as there are it becomes two rows, otherwise the values are refused; and for a tuple.
* `Wrap.C240_shape_fails` — **C240 fails** for a `DataIO` with a shape and no data: it has a length, but is false and has no elements.
* `SpecDict.C242_once_fails` — C242 fails for groups, whose documentation says that an integer greater than 1 is not allowed with a name, and for links.
* `SpecDict.C243_values_fails` — C243 fails for datasets: both values are accepted and kept.
* `SpecDict.C244_dims_fails` — C244 fails for alternatives: names for one or two dimensions and no shape give a shape with two dimensions, so that data with one dimension does not fit; names of two dimensions are accepted with a shape of one or three; alternatives are not compared.
* `SpecDict.C245_types_fails` — C245 fails for a compound type in a compound type, which the documentation of `DtypeSpec` allows: every spec with one is refused, by a TypeError if the other columns are good.
* `Orphan.C247_warns_fails` — C247 fails: a table that is itself the root of the tree (a category of an aligned table with a region to the aligned table) gives a warning; a region added to a table that has a parent already gives none.
* `Orphan.C248_final_fails` — C248 fails: a warning may be wrong in the end, as the table is put into the same container later.
* `Orphan.C249_placed_fails` — C249 fails: a table with a region without a table (which the constructor of the region allows) gets its parent, but the setter raises an AttributeError; regions after it are not checked.
* `AllObj.C250_current_fails` — **C250 (violated).** A child that is added after `all_objects` was asked for is not in it, and one that was removed still is; an object that was given a new id is found under the old one only.
* `AllObj.C251_whole_fails` — **C251 (violated).** With two children of the same id, `all_objects` raises the first time it is asked for and the second time returns, without a word, a dictionary in which one child is missing.
* `StoreType.C253_names_fails` — **C253 (violated).** "date" is a name of the same dtype as "isodatetime" but has no type of its own in the file; and times, which the mapper makes bytes, are stored as text.
* `StoreType.C254_fields_fails` — **C254 (violated).** A value of 8 bytes is kept in a dataset of dtype "float" or "int" but cut to 4 bytes in a field of that dtype; in a field of dtype "numeric" or "date" integers and texts are asked to be float64.
* `StoreType.C255_inferred_fails` — **C255 (violated).** An integer first makes integers of the floats that follow, and an empty list first is refused although the type is clear.
* `DocShare.C257_stay_fails` — **C257 (violated).** What `get_docval` returns is not a copy: changing it changes the function and those that were decorated with it. And when a class is added to a new macro, decorating one function with an argument of another one changes the other one.
* `DocShare.C258_macro_fails` — **C258 (violated).** A class that is added to a macro after a function was decorated is not accepted by that function, though one that is decorated later accepts it.
* `SpecKeys.C259_includes_fails` — **C259 (violated).** A type that is defined below another one in a file of the base language does not get the keys of the project, and the type it includes is not replaced, even if there is none of that name.
* `Delegate.C260_empty_fails` — **C260 (violated).** Whether a `DataIO` without data has some attribute cannot be asked: an error is raised that is not an AttributeError, for every attribute that it does not have.
* `Delegate.C260_blank_fails` — **C260 (violated).** Before `__init__` has set what is wrapped, to ask a wrapper for an attribute that its class does not have calls itself until Python gives up, however many calls are allowed.
* `Delegate.C261_copy_fails` — **C261 (violated).** A deep copy of an array with a term set is an array without one; a deep copy of a list with a term set, and a shallow copy of either, fail.
* `Collapse.C263_same_fails` — **C263 (violated).** Of a slice alone the step is lost, though it is kept in a list: of every second position, all between become found.
<!-- end findings -->

## Not modelled

The bytes on disk, the HDF5/Zarr libraries, numpy casting of values, floating-point arithmetic, pandas, YAML/JSON
parsing, HTML rendering, warnings and log messages, Python's metaclass machinery.

## Appendix: which functions are modelled

Generated by `tools/design.py` from the citations in the doc comments of `lean/Verif/Model`.  A function counts as
modelled when a definition cites lines of it; what is simplified is said in the comment of that definition.

<!-- begin generated -->
### Functions modelled (lines; model modules)

* **array.py**: `Array.__sliceiter` (31–32; Arrays), `Array.__getitem__` (34–48; Arrays, RefData), `AbstractSortedArray.find_point` (57–58; Arrays), `AbstractSortedArray.get_data` (60–61; Arrays), `AbstractSortedArray.__lower` (63–65; Arrays), `AbstractSortedArray.__upper` (67–71; Arrays), `AbstractSortedArray.__lt__` (73–75; Arrays), `AbstractSortedArray.__le__` (77–79; Arrays), `AbstractSortedArray.__gt__` (81–83; Arrays), `AbstractSortedArray.__ge__` (85–87; Arrays), `AbstractSortedArray.__sort` (90–94; Arrays), `AbstractSortedArray.__eq__` (96–152; Arrays), `AbstractSortedArray.__ne__` (154–159; Arrays), `SortedArray.__init__` (169–170; Arrays), `SortedArray.find_point` (172–173; Arrays), `LinSpace.__init__` (178–183; Arrays), `LinSpace.__len__` (185–186; Arrays), `LinSpace.find_point` (188–194; Arrays), `LinSpace.__getidx__` (196–197; Arrays)
* **backends/hdf5/h5_utils.py**: `HDF5IODataChunkIteratorQueue.__init__` (34–36; ChunkStream), `HDF5IODataChunkIteratorQueue._write_chunk` (39–63; ChunkStream, GenericChunks), `HDF5IODataChunkIteratorQueue.exhaust_queue` (65–73; ChunkStream, GenericChunks), `HDF5IODataChunkIteratorQueue.append` (75–84; ChunkStream, GenericChunks), `H5Dataset.shape` (108–109; RefData), `H5Dataset.append` (111–123; RefData), `DatasetOfReferences.get_object` (133–137; RefData), `DatasetOfReferences.invert` (139–151; H5Read, RefData), `DatasetOfReferences._get_ref` (153–154; H5Read, RefData), `DatasetOfReferences.__iter__` (156–158; H5Read), `DatasetOfReferences.__next__` (160–161; H5Read, RefData), `BuilderResolverMixin.get_object` (170–174; RefData), `ContainerResolverMixin.get_object` (183–187; RefData), `AbstractH5TableDataset.__init__` (197–230; RefData), `AbstractH5TableDataset.types` (233–234; RefData), `AbstractH5TableDataset.dtype` (237–238; RefData), `AbstractH5TableDataset.__getitem__` (240–247; RefData), `AbstractH5TableDataset.__swap_refs` (249–252; RefData), `AbstractH5TableDataset.__get_regref` (260–262; RefData), `AbstractH5TableDataset.resolve` (264–265; RefData), `AbstractH5ReferenceDataset.__getitem__` (274–279; RefData), `AbstractH5RegionDataset.__getitem__` (288–291; RefData), `AbstractH5RegionDataset.dtype` (294–295; RefData), `ContainerH5TableDataset.get_inverse_class` (305–306; RefData), `BuilderH5TableDataset.get_inverse_class` (316–317; RefData), `ContainerH5ReferenceDataset.get_inverse_class` (327–328; RefData), `BuilderH5ReferenceDataset.get_inverse_class` (338–339; RefData), `ContainerH5RegionDataset.get_inverse_class` (349–350; RefData), `H5SpecWriter.__init__` (369–370; NsCache), `H5SpecWriter.stringify` (373–377; NsCache), `H5SpecWriter.__write` (379–383; NsCache), `H5SpecWriter.write_spec` (385–386; NsCache), `H5SpecWriter.write_namespace` (388–389; NsCache), `H5DataIO.__init__` (504–559; DataIO), `H5DataIO.dataset` (562–564; DataIO), `H5DataIO.dataset` (567–590; DataIO), `H5DataIO.get_io_params` (592–598; DataIO), `H5DataIO._check_compression_options` (600–635; DataIO), `H5DataIO.filter_available` (638–660; DataIO), `H5DataIO.io_settings` (667–668; DataIO), `H5DataIO.valid` (671–674; DataIO)
* **backends/hdf5/h5tools.py**: `HDF5IO.can_read` (42–50; SpecCache), `HDF5IO.__init__` (73–111; FileIO, H5Read, H5Write), `HDF5IO.__load_namespaces` (192–224; SpecCache), `HDF5IO.__get_namespaces` (258–286; SpecCache), `HDF5IO._order_deps` (289–305; SpecCache), `HDF5IO.__order_deps_aux` (308–317; SpecCache), `HDF5IO.write` (387–397; FileIO), `HDF5IO.__cache_spec` (399–417; NsCache, SpecCache), `HDF5IO.export` (435–467; FileIO), `HDF5IO.export_io` (474–493; FileIO), `HDF5IO.read` (495–504; FileIO, H5Read), `HDF5IO.read_builder` (507–526; FileIO, H5Read, H5Write), `HDF5IO.__set_written` (528–535; H5Write), `HDF5IO.get_written` (537–545; H5Read), `HDF5IO.__set_built` (547–557; H5Read, RefData), `HDF5IO.__get_built` (559–575; H5Read, RefData), `HDF5IO.get_builder` (579–591; H5Read, RefData), `HDF5IO.get_container` (595–604; H5Read, H5RoundTrip, RefData), `HDF5IO.__read_group` (606–669; H5Read, H5RoundTrip, TableFile), `HDF5IO.__read_dataset` (671–732; H5Read, H5RoundTrip), `HDF5IO._check_str_dtype` (734–739; H5Read, H5RoundTrip), `HDF5IO.__compound_dtype_to_list` (742–746; H5Read, H5RoundTrip), `HDF5IO.__read_attrs` (748–759; H5Read, H5RoundTrip), `HDF5IO.__read_ref` (761–772; H5Read), `HDF5IO.open` (774–787; FileIO, H5RoundTrip, H5Write), `HDF5IO.close` (789–805; FileIO, H5RoundTrip, H5Write), `HDF5IO.write_builder` (836–852; FileIO, H5Write), `HDF5IO.__add_refs` (854–875; H5Write), `HDF5IO.get_type` (878–893; H5Write, StoreType), `HDF5IO.__resolve_dtype__` (928–935; StoreType), `HDF5IO.__resolve_dtype_helper__` (938–949; H5Write, StoreType), `HDF5IO.set_attributes` (955–981; H5Write), `HDF5IO._make_attr_ref_filler` (983–998; H5Write), `HDF5IO.write_group` (1010–1038; H5Write), `HDF5IO.__get_path` (1040–1058; H5Write, RefData), `HDF5IO.write_link` (1065–1098; H5Write), `HDF5IO.write_dataset` (1110–1346; DataIO, H5Write, StoreType), `HDF5IO.__scalar_fill__` (1349–1366; H5Write, StoreType), `HDF5IO.__setup_chunked_dset__` (1369–1409; DataIO), `HDF5IO.__setup_empty_dset__` (1412–1438; DataIO), `HDF5IO.__list_fill__` (1462–1501; DataIO, H5Write, StoreType), `HDF5IO.__get_ref` (1508–1535; H5Write, RefData), `HDF5IO._create_ref` (1542–1543; RefData)
* **backends/io.py**: `HDMFIO.__init__` (26–41; FileIO), `HDMFIO.manager` (44–46; FileIO), `HDMFIO.read` (54–75; FileIO), `HDMFIO.write` (81–99; FileIO), `HDMFIO.export` (111–166; Changes, FileIO), `HDMFIO.read_builder` (170–172; FileIO)
* **backends/utils.py**: `WriteStatusTracker.__init__` (12–13; FileIO, H5Write), `WriteStatusTracker.__builderhash` (15–20; FileIO, H5Write), `WriteStatusTracker.set_written` (22–32; FileIO, H5Write), `WriteStatusTracker.get_written` (34–43; FileIO, H5Write), `NamespaceToBuilderHelper.convert_namespace` (53–75; NsCache), `NamespaceToBuilderHelper.get_source_name` (79–80; NsCache), `NamespaceToBuilderHelper.__copy_spec` (83–100; SpecCopy), `NamespaceToBuilderHelper.__get_new_specs` (103–108; SpecCopy)
* **build/builders.py**: `Builder.__init__` (21–31; BuilderEq, Builders, H5Write, Parents), `Builder.path` (34–41; BuilderEq, Builders, H5Read, H5Write, Mapper, Parents), `Builder.name` (44–46; BuilderEq, H5Read, H5Write, Mapper, Parents), `Builder.source` (49–51; BuilderEq, H5Write, Mapper, Parents), `Builder.source` (54–57; Builders, H5Write, Parents), `Builder.parent` (60–62; Builders, H5Write, Parents), `Builder.parent` (65–70; Builders, H5Write), `Builder.__repr__` (72–74; Builders), `BaseBuilder.__init__` (87–93; BuilderEq), `BaseBuilder.set_attribute` (111–114; BuilderEq), `GroupBuilder.__init__` (143–164; BuilderEq, BuilderView, Builders, H5Read, H5Write, Mapper), `GroupBuilder.__to_list` (166–169; Changes, H5Read, H5Write, Mapper), `GroupBuilder.source` (172–174; Changes, H5Read, H5Write, Mapper), `GroupBuilder.source` (177–188; Builders, Changes), `GroupBuilder.groups` (191–193; BuilderEq, Builders, Changes), `GroupBuilder.datasets` (196–198; BuilderEq, Builders, Changes), `GroupBuilder.links` (201–203; BuilderEq, Builders), `GroupBuilder.set_attribute` (206–211; Builders, H5Read, Mapper), `GroupBuilder.__check_obj_type` (213–217; Builders, H5Read, Mapper), `GroupBuilder.set_group` (221–224; H5Read, Mapper), `GroupBuilder.set_dataset` (228–231; Mapper), `GroupBuilder.set_link` (235–238; Mapper), `GroupBuilder.__set_builder` (240–251; Builders, H5Read, Mapper), `GroupBuilder.is_empty` (253–260; H5Read, Mapper), `GroupBuilder.__getitem__` (262–270; Builders, Mapper), `GroupBuilder.get` (272–280; BuilderView, Builders), `GroupBuilder.__get_rec` (282–291; Builders), `GroupBuilder.__setitem__` (293–294; BuilderView), `GroupBuilder.__contains__` (296–297; BuilderView), `GroupBuilder.items` (299–304; BuilderView), `GroupBuilder.keys` (306–311; BuilderView), `GroupBuilder.values` (313–318; BuilderView), `DatasetBuilder.__init__` (342–358; BuilderEq, Builders, H5Read, H5Write, Mapper, Once), `DatasetBuilder.data` (361–363; Builders, Mapper, Once), `DatasetBuilder.data` (366–369; Mapper, Once), `DatasetBuilder.dimension_labels` (372–374; Mapper, Once), `DatasetBuilder.chunks` (377–379; Mapper, Once), `DatasetBuilder.maxshape` (382–384; Mapper, Once), `DatasetBuilder.dtype` (387–389; Mapper, Once), `DatasetBuilder.dtype` (392–395; Mapper, Once), `LinkBuilder.__init__` (405–411; BuilderEq, H5Read, H5Write, Mapper), `LinkBuilder.builder` (414–416; BuilderEq, H5Read, H5Write, Mapper), `ReferenceBuilder.__init__` (423–426; Mapper), `ReferenceBuilder.builder` (429–431; Mapper)
* **build/classgenerator.py**: `ClassGenerator.__init__` (15–16; Share), `ClassGenerator.custom_generators` (19–20; Share), `ClassGenerator.register_generator` (23–33; Share), `ClassGenerator.generate_class` (43–92; ClassGen, Share, TypeMap), `CustomClassGenerator._get_type_from_spec_dtype` (141–150; ClassGen), `CustomClassGenerator._get_type` (164–189; ClassGen), `CustomClassGenerator._set_default_name` (203–208; ClassGen), `CustomClassGenerator.process_field_spec` (216–255; ClassGen), `CustomClassGenerator._check_spec_optional` (258–265; ClassGen), `CustomClassGenerator._add_to_docval_args` (268–278; ClassGen), `CustomClassGenerator.post_process` (281–302; ClassGen), `CustomClassGenerator.set_init` (309–367; ClassGen, Mapper), `MCIClassGenerator.apply_generator_to_field` (373–375; ClassGen, Share), `MCIClassGenerator.process_field_spec` (378–406; ClassGen), `MCIClassGenerator.post_process` (409–430; ClassGen), `MCIClassGenerator.set_init` (433–474; ClassGen)
* **build/errors.py**: `BuildError.__init__` (12–16; Mapper), `OrphanContainerBuildError.__init__` (23–28; Mapper), `ReferenceTargetNotBuiltError.__init__` (35–40; Mapper)
* **build/manager.py**: `Proxy.__init__` (25–31; Parents, Tree), `Proxy.source` (34–36; Parents, Tree), `Proxy.location` (39–41; Parents, Tree), `Proxy.namespace` (44–46; Parents, Tree), `Proxy.data_type` (49–51; Parents, Tree), `Proxy.matches` (54–58; Parents, Tree), `Proxy.add_candidate` (61–63; Parents, Tree), `Proxy.resolve` (65–69; Parents, Tree), `Proxy.__eq__` (71–75; Parents, Tree), `Proxy.__repr__` (77–81; Parents, Tree), `BuildManager.__init__` (89–95; Manager, Parents), `BuildManager._get_proxy_builder` (116–125; Parents), `BuildManager._get_proxy_container` (127–139; Parents), `BuildManager.build` (150–192; Changes, Manager, Mapper), `BuildManager.prebuilt` (197–203; Changes, Manager), `BuildManager.__add_refs` (221–235; Manager), `BuildManager.queue_ref` (237–242; Manager), `BuildManager.purge_outdated` (244–255; Changes, Manager, Mapper), `BuildManager.clear_cache` (257–259; Changes, Manager, Mapper), `BuildManager.get_builder` (262–267; Manager, Mapper, RefData), `BuildManager.construct` (271–290; Changes, Manager, Mapper, Parents), `BuildManager.__resolve_parents` (292–299; Parents), `BuildManager.__get_parent_dt_builder` (301–314; Parents), `TypeSource.__init__` (381–384; TypeMap), `TypeSource.namespace` (387–388; TypeMap), `TypeSource.data_type` (391–392; TypeMap), `TypeMap.__init__` (404–423; Share, TypeConf, TypeMap), `TypeMap.namespace_catalog` (426–427; Share, TypeConf, TypeMap), `TypeMap.container_types` (430–431; Share, TypeConf), `TypeMap.__copy__` (433–436; Share, TypeConf), `TypeMap.__deepcopy__` (438–441; Share, TypeConf, TypeMap), `TypeMap.copy_mappers` (443–453; Share, TypeMap), `TypeMap.merge` (455–466; Share, TypeMap), `TypeMap.load_namespaces` (476–491; TypeMap), `TypeMap.get_container_cls` (497–505; TypeMap), `TypeMap.get_dt_container_cls` (513–549; TypeMap), `TypeMap.__check_dependent_types` (551–582; TypeMap), `TypeMap.__get_parent_cls` (584–601; TypeMap), `TypeMap.__get_container_cls` (603–615; TypeMap), `TypeMap.__type_key` (619–629; Subspec), `TypeMap.get_builder_dt` (633–647; Mapper, Subspec), `TypeMap.get_builder_ns` (651–657; Mapper, Subspec), `TypeMap.get_cls` (661–670; Subspec, TypeMap), `TypeMap.get_subspec` (675–703; Subspec), `TypeMap.get_container_cls_dt` (710–716; TypeMap), `TypeMap.get_container_classes` (720–725; TypeMap), `TypeMap.get_map` (729–754; TypeMap), `TypeMap.register_container_type` (759–768; TypeMap), `TypeMap.register_map` (773–778; TypeMap), `TypeMap.build` (789–809; Mapper), `TypeMap.construct` (817–827; Mapper), `TypeMap.get_builder_name` (831–838; Mapper)
* **build/objectmapper.py**: `_ascii` (83–92; Convert), `ObjectMapper.__resolve_numeric_dtype` (135–178; Convert, Ids), `ObjectMapper.convert_dtype` (188–265; Convert, StoreType), `ObjectMapper.__check_convert_numeric` (268–274; Convert), `ObjectMapper.__check_edgecases` (277–336; Convert, Ids, StoreType), `ObjectMapper.constructor_arg` (343–352; Names), `ObjectMapper.object_attr` (359–369; Names), `ObjectMapper.__is_attr` (372–373; Names), `ObjectMapper.__get_obj_attr` (376–377; Names), `ObjectMapper.__is_constructor_arg` (380–381; Names), `ObjectMapper.__get_cargname` (384–385; Names), `ObjectMapper.__gather_procedures` (388–401; Names), `ObjectMapper.__init__` (405–415; Mapper, Names), `ObjectMapper.convert_dt_name` (429–437; Names), `ObjectMapper.__get_fields` (440–463; Names), `ObjectMapper.get_attr_names` (467–480; Names), `ObjectMapper.__map_spec` (482–485; Names), `ObjectMapper.map_attr` (489–493; Names), `ObjectMapper.get_attr_spec` (496–499; Names), `ObjectMapper.get_carg_spec` (502–505; Names), `ObjectMapper.map_const_arg` (509–513; Names), `ObjectMapper.unmap` (516–520; Names), `ObjectMapper.map_spec` (524–528; Names), `ObjectMapper.__get_override_carg` (530–537; Names), `ObjectMapper.__get_override_attr` (539–544; Names), `ObjectMapper.get_attribute` (548–552; Names), `ObjectMapper.get_attr_value` (558–586; Mapper), `ObjectMapper.__get_data_type` (589–600; Mapper, Names), `ObjectMapper.__convert_string` (602–641; DataIO, IsoDate, Mapper), `ObjectMapper.__filter_by_spec_dt` (643–677; Mapper), `ObjectMapper.__check_quantity` (679–697; Mapper), `ObjectMapper.get_const_arg` (701–704; Names), `ObjectMapper.build` (716–816; Mapper), `ObjectMapper.__check_dset_spec` (818–833; Convert), `ObjectMapper.__get_dimension_labels_from_spec` (835–884; Convert), `ObjectMapper.__set_dataset_to_refs` (913–920; Manager), `ObjectMapper.__set_compound_dataset_to_refs` (922–939; Manager), `ObjectMapper.__set_untyped_dataset_to_refs` (941–957; Manager), `ObjectMapper.__get_ref_builder` (959–995; DataIO, Manager), `ObjectMapper.__get_target_builder` (997–1001; Manager), `ObjectMapper.__add_attributes` (1003–1045; Manager, Mapper), `ObjectMapper.__set_attr_to_ref` (1047–1060; Mapper), `ObjectMapper.__add_links` (1062–1075; Mapper), `ObjectMapper.__add_datasets` (1077–1122; Mapper), `ObjectMapper.__add_groups` (1124–1152; Mapper), `ObjectMapper.__add_containers` (1154–1214; Manager, Mapper), `ObjectMapper.__get_subspec_values` (1216–1269; Mapper, Parents), `ObjectMapper.__check_ref_resolver` (1272–1278; Parents), `ObjectMapper.__get_sub_builders` (1280–1312; Mapper, Parents), `ObjectMapper.__flatten` (1314–1318; Mapper, Parents), `ObjectMapper.construct` (1325–1365; Manager, Mapper, Parents, TableFile), `ObjectMapper.__new_container__` (1367–1375; Manager, Mapper, Parents), `ObjectMapper.get_builder_name` (1379–1386; Mapper)
* **common/__init__.py**: `load_type_config` (27–35; TypeConf), `get_loaded_type_config` (39–49; TypeConf), `unload_type_config` (53–59; TypeConf), `load_namespaces` (135–140; TypeConf), `available_namespaces` (143–144; TypeConf), `get_class` (154–158; TypeConf), `get_type_map` (166–193; Share)
* **common/alignedtable.py**: `AlignedDynamicTable.__init__` (38–101; Aligned, AlignedGet), `AlignedDynamicTable.__contains__` (103–117; AlignedGet), `AlignedDynamicTable.categories` (120–128; Aligned), `AlignedDynamicTable.add_category` (131–152; Aligned), `AlignedDynamicTable.get_category` (155–160; Aligned, AlignedGet), `AlignedDynamicTable.add_column` (165–182; Aligned), `AlignedDynamicTable.add_row` (189–215; Aligned), `AlignedDynamicTable.get_colnames` (221–237; Aligned, AlignedGet), `AlignedDynamicTable.to_dataframe` (241–251; AlignedGet), `AlignedDynamicTable.__getitem__` (253–259; AlignedGet), `AlignedDynamicTable.get` (261–357; Aligned, AlignedGet), `AlignedDynamicTable.has_foreign_columns` (362–375; AlignedForeign), `AlignedDynamicTable.get_foreign_columns` (380–395; AlignedForeign), `AlignedDynamicTable.get_linked_tables` (401–416; Hier)
* **common/hierarchicaltable.py**: `to_hierarchical_dataframe` (17–158; Hier), `__get_col_name` (161–170; Hier), `__flatten_column_name` (173–194; Hier), `drop_id_columns` (204–222; Hier), `flatten_column_index` (238–266; Hier)
* **common/io/table.py**: `DynamicTableMap.__init__` (11–14; TableFile), `DynamicTableMap.attr_columns` (17–20; TableFile), `DynamicTableGenerator.apply_generator_to_field` (51–59; ClassGen), `DynamicTableGenerator.process_field_spec` (62–98; ClassGen), `DynamicTableGenerator.post_process` (103–113; ClassGen), `DynamicTableGenerator._get_attrs_not_to_set_init` (116–122; ClassGen)
* **common/resources.py**: `HERD.__init__` (191–200; Herd, HerdZip), `HERD.assert_external_resources_equal` (203–252; HerdZip), `HERD._check_object_field` (350–396; Herd), `HERD._get_file_from_container` (401–421; Herd), `HERD.__check_termset_wrapper` (425–446; HerdZip), `HERD.add_ref_container` (450–477; HerdZip), `HERD.add_ref_termset` (493–545; Herd), `HERD.add_ref` (561–756; Herd), `HERD.get_key` (770–806; Herd), `HERD.get_entity` (809–815; Herd), `HERD.get_object_type` (828–845; HerdZip), `HERD.get_object_entities` (859–896; Herd), `HERD.to_dataframe` (901–969; Herd), `HERD.to_zip` (972–990; HerdZip), `HERD.get_zip_directory` (994–999; HerdZip), `HERD.from_zip` (1003–1085; Herd, HerdZip)
* **common/sparse.py**: `CSRMatrix.__init__` (18–37; Sparse), `CSRMatrix.__check_arr` (40–47; Sparse), `CSRMatrix.__getattr__` (49–54; Delegate, Sparse), `CSRMatrix.to_spmat` (56–57; Sparse)
* **common/table.py**: `VectorData.__init__` (43–46; TableInit), `VectorData.add_row` (49–52; Ragged, Table), `VectorData.get` (54–61; Nested), `VectorData.extend` (63–80; Nested), `VectorIndex.__init__` (100–111; Ragged, TableInit), `VectorIndex.add_vector` (113–123; Ragged), `VectorIndex.__check_precision` (125–142; Ragged), `VectorIndex.__adjust_precision` (144–155; Ragged), `VectorIndex.add_row` (157–161; Ragged), `VectorIndex.__getitem_helper` (163–173; Nested, Ragged), `VectorIndex.__getitem__` (175–182; AlignedGet, Ragged), `VectorIndex.get` (184–204; Hier, Nested, Ragged, Region), `ElementIdentifiers.__init__` (217–218; Ids), `ElementIdentifiers.__eq__` (229–238; Ids, Tree), `ElementIdentifiers._validate_new_data` (240–247; Ids), `ElementIdentifiers._validate_new_data_element` (249–252; Ids), `DynamicTable.__gather_columns` (284–305; Table), `DynamicTable.__init__` (321–498; Nested, TableInit), `DynamicTable.__set_table_attr` (501–508; TableInit), `DynamicTable._init_class_columns` (512–547; Table, TableInit), `DynamicTable._set_dtr_targets` (549–581; TableInit), `DynamicTable.__build_columns` (584–632; Hier, TableInit), `DynamicTable.__len__` (634–636; Table), `DynamicTable.add_row` (646–720; Table), `DynamicTable.__eq__` (722–739; Table, Tree), `DynamicTable.add_column` (764–929; Table), `DynamicTable.__add_column_index_helper` (931–938; Table), `DynamicTable.create_region` (943–964; Region), `DynamicTable.__getitem__` (966–970; AlignedGet, Nested, TableInit), `DynamicTable.get` (972–1035; AlignedGet, Nested, Region, Table, TableInit), `DynamicTable.__get_selection_as_dict` (1037–1088; Hier, Nested, Region, Table), `DynamicTable.__get_selection_as_df_single_row` (1090–1110; Nested, Region), `DynamicTable.__get_selection_as_df` (1112–1135; Nested, Region), `DynamicTable.__contains__` (1137–1141; AlignedGet), `DynamicTable.get_foreign_columns` (1143–1155; Hier), `DynamicTable.has_foreign_columns` (1157–1166; Hier), `DynamicTable.get_linked_tables` (1173–1207; Hier), `DynamicTable.to_dataframe` (1216–1227; Nested), `DynamicTable.from_dataframe` (1282–1335; Hier), `DynamicTable.copy` (1337–1344; TableInit), `DynamicTableRegion.__init__` (1370–1373; Nested), `DynamicTableRegion.table` (1376–1378; Nested, Orphan), `DynamicTableRegion.table` (1381–1398; Nested, Orphan), `DynamicTableRegion.__getitem__` (1400–1401; AlignedGet, Nested), `DynamicTableRegion.get` (1403–1469; Nested, Region), `DynamicTableRegion._index_lol` (1471–1491; Region), `DynamicTableRegion.to_dataframe` (1493–1501; Nested), `DynamicTableRegion.shape` (1504–1509; Nested), `DynamicTableRegion._validate_on_set_parent` (1523–1541; Orphan), `_uint_precision` (1544–1549; Enum), `_map_elements` (1552–1554; Enum), `EnumData.__init__` (1572–1584; Enum, TableInit), `EnumData.__add_term` (1586–1606; Enum), `EnumData.__getitem__` (1608–1609; Enum), `EnumData._get_helper` (1611–1627; Enum), `EnumData.get` (1629–1642; Enum), `EnumData.add_row` (1647–1656; Enum)
* **container.py**: `AbstractContainer._setter` (75–92; Changes, ClassGen, Once), `AbstractContainer._get_type_map` (94–96; TypeConf), `AbstractContainer._field_config` (105–167; Once, TypeConf), `AbstractContainer._getter` (170–181; Once), `AbstractContainer._check_field_spec` (184–195; ClassGen), `AbstractContainer._check_field_spec_keys` (198–203; ClassGen), `AbstractContainer._get_fields` (206–207; ClassGen), `AbstractContainer._set_fields` (210–211; ClassGen), `AbstractContainer.get_fields_conf` (214–215; ClassGen), `AbstractContainer.__gather_fields` (218–270; ClassGen), `AbstractContainer.__del__` (272–278; Mapper, ReadIo), `AbstractContainer.__new__` (280–300; AllObj, Changes, Mapper, Multi, Orphan, Parents, Tree), `AbstractContainer.__init__` (303–310; AllObj, ClassGen, Multi, Parents, ReadIo), `AbstractContainer.read_io` (313–321; ReadIo), `AbstractContainer.read_io` (324–341; ReadIo), `AbstractContainer.get_read_io` (343–359; ReadIo), `AbstractContainer.name` (362–366; Multi), `AbstractContainer.get_ancestor` (369–381; Tree), `AbstractContainer.all_children` (383–405; AllObj, Tree), `AbstractContainer.all_objects` (408–412; AllObj), `AbstractContainer.get_ancestors` (415–421; Orphan, Tree), `AbstractContainer.fields` (424–434; Mapper), `AbstractContainer.object_id` (437–440; AllObj, Mapper), `AbstractContainer.generate_new_id` (444–451; AllObj, Changes, Mapper), `AbstractContainer.modified` (454–455; Changes, Mapper), `AbstractContainer.set_modified` (459–463; Changes, Mapper, Tree), `AbstractContainer.children` (466–467; Changes, Mapper, Orphan), `AbstractContainer.add_child` (471–482; Changes, Mapper, Orphan, Tree), `AbstractContainer.type_hierarchy` (485–486; Mapper, Orphan), `AbstractContainer.container_source` (489–493; Mapper, Orphan), `AbstractContainer.container_source` (496–499; Mapper, Once, Orphan), `AbstractContainer.parent` (502–507; Mapper, Orphan, Parents, Tree), `AbstractContainer.parent` (510–536; Changes, Mapper, Orphan, Parents, Tree), `AbstractContainer._remove_child` (538–548; Changes, Tree), `AbstractContainer.reset_parent` (550–560; Tree), `AbstractContainer._validate_on_set_parent` (562–568; Orphan), `Container._setter` (577–623; ClassGen, Once, Parents, Tree), `Container.__repr__` (625–637; Repr), `Container._repr_html_` (685–693; Html), `Container._generate_html_repr` (695–715; Html), `Container._generate_field_html` (717–746; Html), `Container._generate_array_html` (748–751; Html), `Container.__smart_str` (754–792; Repr), `Container.__smart_str_list` (795–810; Repr), `Container.__smart_str_dict` (813–827; Repr), `Container.set_data_io` (829–875; Changes), `Data.__init__` (884–889; Ids), `Data.data` (892–893; Ids), `Data.shape` (896–902; Ids), `Data.set_dataio` (905–916; Ids), `Data.set_data_io` (918–948; Changes, Ids, Ragged), `Data.transform` (951–960; Changes, Ids, Ragged, Region), `Data.__bool__` (962–968; Ids, Ragged, TableFile), `Data.__len__` (970–971; Ids, Ragged, RefData), `Data.__getitem__` (973–974; AlignedGet, Ids, Ragged, RefData, Same), `Data.get` (976–982; Ids, Nested, Ragged, RefData, Same), `Data.append` (984–986; Ids, Ragged, RefData), `Data.extend` (988–996; Ids), `MultiContainerInterface.__make_get` (1091–1120; Multi), `MultiContainerInterface.__make_getitem` (1123–1153; ClassGen, Multi), `MultiContainerInterface.__make_add` (1156–1186; ClassGen, Multi), `MultiContainerInterface.__make_create` (1189–1199; Multi), `MultiContainerInterface.__make_constructor` (1202–1222; Multi), `MultiContainerInterface.__make_getter` (1225–1240; Multi), `MultiContainerInterface.__make_setter` (1243–1253; ClassGen, Multi), `MultiContainerInterface.__build_class` (1256–1285; ClassGen), `MultiContainerInterface.__build_conf_methods` (1288–1338; ClassGen), `Row.idx` (1357–1359; Rows), `Row.idx` (1362–1366; Rows), `Row.table` (1369–1371; Rows), `Row.table` (1374–1378; Rows), `Row.__build_row_class` (1381–1419; Rows), `RowGetter.__init__` (1434–1436; Rows), `RowGetter.__getitem__` (1438–1444; Rows), `Table.__build_table_class` (1476–1507; Rows), `Table.__init__` (1512–1517; Rows), `Table.columns` (1520–1521; Rows), `Table.add_row` (1524–1533; Herd, Rows), `Table.which` (1535–1552; Herd, Rows), `Table.__getitem__` (1557–1575; Rows), `Table.to_dataframe` (1577–1582; Rows), `Table.from_dataframe` (1595–1638; Rows)
* **data_utils.py**: `append_data` (20–44; Ids, Ragged, RefData, Terms, Wrap), `extend_data` (47–69; Ids, Ragged, Terms, Wrap), `AbstractDataChunkIterator.__iter__` (84–86; Monitor), `AbstractDataChunkIterator.__next__` (89–99; Monitor), `AbstractDataChunkIterator.recommended_chunk_shape` (102–110; DataIO, Monitor), `AbstractDataChunkIterator.recommended_data_shape` (113–125; DataIO, Monitor), `AbstractDataChunkIterator.dtype` (129–135; DataIO, Monitor), `AbstractDataChunkIterator.maxshape` (139–146; DataIO, Monitor), `GenericDataChunkIterator.__init__` (206–322; GenericChunks), `GenericDataChunkIterator._get_default_chunk_shape` (332–353; GenericChunks), `GenericDataChunkIterator._get_default_buffer_shape` (363–386; GenericChunks), `GenericDataChunkIterator.__next__` (391–410; GenericChunks), `GenericDataChunkIterator._get_data` (418–432; GenericChunks), `DataChunkIterator.__init__` (503–562; ChunkStream), `DataChunkIterator._read_next_chunk` (573–646; ChunkStream, Monitor), `DataChunkIterator.__next__` (648–678; ChunkStream), `DataChunkIterator.recommended_chunk_shape` (683–690; ChunkStream), `DataChunkIterator.recommended_data_shape` (695–701; ChunkStream), `DataChunkIterator.maxshape` (704–743; ChunkStream), `DataChunkIterator.dtype` (746–752; ChunkStream), `DataChunk.__init__` (764–765; Delegate), `DataChunk.__len__` (767–772; Delegate, Monitor), `DataChunk.__getattr__` (774–776; Delegate), `DataChunk.__copy__` (778–781; Delegate), `DataChunk.__deepcopy__` (783–787; Delegate), `DataChunk.astype` (789–792; Delegate), `DataChunk.dtype` (795–801; Delegate), `DataChunk.get_min_bounds` (803–825; ChunkStream), `assertEqualShape` (828–927; Shape), `ShapeValidatorResult.__init__` (967–970; Shape), `ShapeValidatorResult.__setattr__` (972–985; Shape), `ShapeValidatorResult.__getattr__` (987–993; Shape), `DataIO.__init__` (1015–1029; DataIO, Delegate, Once, Wrap), `DataIO.get_io_params` (1031–1035; Once), `DataIO.data` (1038–1040; Once, Wrap), `DataIO.data` (1043–1049; Once, Wrap), `DataIO.dtype` (1052–1054; DataIO, Wrap), `DataIO.shape` (1057–1059; DataIO, Wrap), `DataIO.__copy__` (1061–1071; DataIO, Delegate, Wrap), `DataIO.append` (1073–1074; Delegate, Wrap), `DataIO.extend` (1076–1077; Delegate, Wrap), `DataIO.__deepcopy__` (1079–1092; DataIO, Delegate), `DataIO.__len__` (1094–1102; Delegate, Wrap), `DataIO.__bool__` (1104–1109; DataIO, Delegate, Wrap), `DataIO.__getattr__` (1111–1118; DataIO, Delegate, Wrap), `DataIO.__getitem__` (1120–1124; Wrap), `DataIO.__array__` (1126–1141; Delegate), `DataIO.__next__` (1143–1147; DataIO), `DataIO.__iter__` (1149–1153; DataIO, Wrap)
* **monitor.py**: `DataChunkProcessor.__init__` (14–17; Monitor), `DataChunkProcessor.__next__` (19–26; Monitor), `DataChunkProcessor.__iter__` (28–29; Monitor), `DataChunkProcessor.recommended_chunk_shape` (31–32; Monitor), `DataChunkProcessor.recommended_data_shape` (34–35; Monitor), `DataChunkProcessor.get_final_result` (37–41; Monitor), `DataChunkProcessor.process_data_chunk` (45–49; Monitor), `DataChunkProcessor.compute_final_result` (53–57; Monitor), `NumSampleCounter.__init__` (62–64; Monitor), `NumSampleCounter.process_data_chunk` (67–69; Monitor), `NumSampleCounter.compute_final_result` (72–73; Monitor)
* **query.py**: `Query.__make_operators` (25–36; Hooks), `Query.__init__` (38–43; RefData), `Query.evaluate` (46–55; RefData), `Query.__evalhelper` (57–66; RefData), `Query.__collapse` (68–80; Collapse), `Query.__xor__` (88–89; RefData), `Query.__contains__` (91–92; RefData), `HDMFDataset.__make_operators` (115–125; RefData), `HDMFDataset.__evaluate_key` (127–135; RefData)
* **region.py**: `ListSlicer.__init__` (59–67; Slicer), `ListSlicer.__read_region` (69–75; Slicer), `ListSlicer.__getitem__` (77–87; Slicer), `ListSlicer.__len__` (89–91; Slicer)
* **spec/catalog.py**: `SpecCatalog.__init__` (10–27; Catalog, Namespace), `SpecCatalog.register_spec` (32–48; Catalog, Namespace, TypeMap), `SpecCatalog.get_spec` (52–57; Catalog), `SpecCatalog.get_registered_types` (60–65; Catalog), `SpecCatalog.get_spec_source_file` (70–78; Catalog), `SpecCatalog.auto_register` (85–103; Namespace, NsWrite), `SpecCatalog.get_hierarchy` (109–133; Catalog, TypeMap, Validate), `SpecCatalog.get_full_hierarchy` (137–160; TypeTree), `SpecCatalog.get_subtypes` (169–196; Catalog), `SpecCatalog.__copy__` (198–201; Catalog)
* **spec/namespace.py**: `SpecNamespace.__init__` (40–68; Namespace, NsWrite), `SpecNamespace.build_namespace` (166–172; Namespace), `SpecReader.__init__` (178–179; Namespace), `SpecReader.source` (182–183; Namespace), `SpecReader.read_spec` (186–187; Namespace), `SpecReader.read_namespace` (190–191; Namespace), `YAMLSpecReader.__init__` (197–198; Namespace, NsWrite), `YAMLSpecReader.read_namespace` (200–208; Namespace, NsWrite), `YAMLSpecReader.read_spec` (210–217; Namespace, NsWrite), `YAMLSpecReader.__get_spec_path` (219–222; Namespace, NsWrite), `NamespaceCatalog.__init__` (233–245; Namespace, Share), `NamespaceCatalog.__copy__` (247–255; Share), `NamespaceCatalog.merge` (257–259; Namespace, Share), `NamespaceCatalog.namespaces` (263–265; Share), `NamespaceCatalog.dataset_spec_cls` (268–270; Share), `NamespaceCatalog.group_spec_cls` (273–275; Share), `NamespaceCatalog.spec_namespace_cls` (278–280; Share), `NamespaceCatalog.add_namespace` (284–294; Namespace, Share), `NamespaceCatalog.get_namespace` (298–304; Share), `NamespaceCatalog.get_spec` (309–316; Share, TypeMap), `NamespaceCatalog.get_hierarchy` (321–329; Mapper, Share), `NamespaceCatalog.is_sub_data_type` (335–341; Mapper, Share), `NamespaceCatalog.get_sources` (344–348; Share), `NamespaceCatalog.get_namespace_sources` (352–357; Share), `NamespaceCatalog.get_types` (361–371; Namespace, Share), `NamespaceCatalog.__load_spec_file` (373–404; Namespace, Share, SpecCopy, SpecKeys), `NamespaceCatalog.__convert_spec_cls_keys` (406–413; SpecKeys), `NamespaceCatalog.__resolve_includes` (415–431; Namespace, SpecKeys), `NamespaceCatalog.__load_namespace` (433–466; Namespace, Share), `NamespaceCatalog.__register_type` (468–481; Namespace), `NamespaceCatalog.__register_dependent_types` (483–504; Namespace), `NamespaceCatalog.load_namespaces` (514–543; Namespace, Share)
* **spec/spec.py**: `DtypeHelper.check_dtype` (73–78; SpecDict), `ConstructableDict.build_spec` (89–102; SpecDict), `Spec.parent` (139–143; Once), `Spec.__hash__` (151–152; Mapper, Names), `Spec.path` (155–166; Names, Validate), `RefSpec.__init__` (185–191; Spec, SpecDict), `RefSpec.target_type` (194–196; Mapper, Spec, SpecDict), `RefSpec.reftype` (199–201; Mapper, Spec, SpecDict), `RefSpec.is_region` (204–205; Mapper, Spec, SpecDict), `AttributeSpec.__init__` (227–248; Mapper, Spec, SpecDict, Validate), `AttributeSpec.dtype` (251–253; Mapper, SpecDict, Validate), `AttributeSpec.value` (256–258; Mapper, SpecDict), `AttributeSpec.default_value` (261–263; Mapper, SpecDict), `AttributeSpec.required` (266–268; Mapper, SpecDict), `AttributeSpec.dims` (271–273; Mapper, SpecDict), `AttributeSpec.shape` (276–278; Mapper, SpecDict, Validate), `AttributeSpec.build_const_args` (281–286; Mapper, SpecDict), `BaseStorageSpec.__init__` (314–362; Mapper, Names, Spec, SpecDict, Validate), `BaseStorageSpec.default_name` (365–367; Mapper), `BaseStorageSpec.required` (374–376; Mapper, Vmatch), `BaseStorageSpec.resolve_spec` (380–389; Spec), `BaseStorageSpec.is_inherited_spec` (392–401; SpecCopy), `BaseStorageSpec.is_overridden_spec` (404–413; SpecCopy), `BaseStorageSpec.is_inherited_attribute` (416–425; Spec), `BaseStorageSpec.is_overridden_attribute` (428–437; Spec), `BaseStorageSpec.is_many` (439–440; Mapper, Vmatch), `BaseStorageSpec.data_type_inc` (496–498; TypeMap), `BaseStorageSpec.data_type_def` (501–503; TypeMap), `BaseStorageSpec.add_attribute` (516–520; Spec), `BaseStorageSpec.set_attribute` (523–549; Spec, SpecDict), `BaseStorageSpec.get_attribute` (552–555; Spec), `BaseStorageSpec.build_const_args` (558–563; Spec, SpecDict), `DtypeSpec.__init__` (577–582; Spec, SpecDict), `DtypeSpec.doc` (585–587; Spec, SpecDict), `DtypeSpec.name` (590–592; Spec, SpecDict), `DtypeSpec.dtype` (595–597; Spec), `DtypeSpec.assertValidDtype` (600–602; Spec), `DtypeSpec.check_valid_dtype` (605–612; Spec, SpecDict), `DtypeSpec.is_ref` (616–624; SpecDict), `DtypeSpec.build_const_args` (627–634; SpecDict), `DatasetSpec.__init__` (664–695; Spec, SpecDict, Validate), `DatasetSpec.__get_prec_level` (698–704; Spec, SpecDict), `DatasetSpec.__is_sub_dtype` (707–718; Spec), `DatasetSpec.resolve_spec` (722–746; Spec), `DatasetSpec.shape` (759–761; Validate), `DatasetSpec.build_const_args` (783–791; Mapper, SpecDict), `LinkSpec.__init__` (805–817; Mapper, Spec, SpecDict, Validate), `LinkSpec.target_type` (820–822; Mapper, Spec, SpecDict, Validate), `LinkSpec.data_type_inc` (825–827; Mapper, Spec, Validate), `LinkSpec.is_many` (829–830; Mapper, Spec, Validate, Vmatch), `LinkSpec.quantity` (833–835; Mapper, Spec, Validate), `LinkSpec.required` (838–840; Mapper, Spec, Validate, Vmatch), `GroupSpec.__init__` (880–901; Names, Spec, SpecDict, Subspec, Validate), `GroupSpec.resolve_spec` (904–966; Spec), `GroupSpec.is_inherited_dataset` (970–975; Spec), `GroupSpec.is_overridden_dataset` (979–984; Spec), `GroupSpec.is_inherited_group` (988–993; Spec), `GroupSpec.is_overridden_group` (997–1002; Spec), `GroupSpec.is_inherited_link` (1006–1011; Spec), `GroupSpec.is_overridden_link` (1015–1020; Spec), `GroupSpec.is_inherited_spec` (1023–1064; ClassGen, SpecCopy), `GroupSpec.is_overridden_spec` (1067–1108; Mapper, Spec, SpecCopy), `GroupSpec.is_inherited_type` (1111–1118; Mapper, Spec), `GroupSpec.is_overridden_type` (1122–1124; Mapper, SpecCopy), `GroupSpec.__add_data_type_inc` (1140–1189; Spec, SpecDict, Subspec), `GroupSpec.__add_target_type` (1191–1233; Spec, Subspec), `GroupSpec.get_data_type` (1236–1247; Subspec), `GroupSpec.get_target_type` (1250–1261; Subspec), `GroupSpec.add_group` (1279–1283; Spec, Subspec), `GroupSpec.set_group` (1286–1303; Spec, SpecDict, Subspec), `GroupSpec.get_group` (1306–1309; Spec, Subspec), `GroupSpec.add_dataset` (1312–1316; Spec, Subspec), `GroupSpec.set_dataset` (1319–1336; Spec, SpecDict, Subspec), `GroupSpec.get_dataset` (1339–1342; Spec, Subspec), `GroupSpec.add_link` (1345–1349; Spec, Subspec), `GroupSpec.set_link` (1352–1362; Spec, SpecDict, Subspec), `GroupSpec.get_link` (1365–1368; Spec, Subspec), `GroupSpec.build_const_args` (1389–1398; Spec, SpecDict)
* **spec/write.py**: `YAMLSpecWriter.__dump_spec` (35–39; SortKeys), `YAMLSpecWriter.write_spec` (41–47; SortKeys), `YAMLSpecWriter.write_namespace` (49–61; NsWrite, SortKeys), `YAMLSpecWriter.reorder_yaml` (63–71; NsWrite, SortKeys), `YAMLSpecWriter.sort_keys` (73–101; SortKeys), `NamespaceBuilder.__init__` (118–129; NsWrite), `NamespaceBuilder.add_spec` (133–138; NsWrite), `NamespaceBuilder.add_source` (143–154; NsWrite), `NamespaceBuilder.include_type` (160–170; NsWrite), `NamespaceBuilder.include_namespace` (173–176; NsWrite), `NamespaceBuilder.export` (185–219; NsCache, NsWrite), `SpecFileBuilder.add_spec` (229–234; NsWrite), `export_spec` (237–259; NsWrite)
* **term_set.py**: `TermSet.__init__` (22–58; Terms), `TermSet.__perm_value_key_info` (96–115; Terms), `TermSet.validate` (118–127; Terms), `TermSet.__getitem__` (144–157; Terms), `TermSetWrapper.__init__` (222–226; Delegate, Terms), `TermSetWrapper.__validate` (228–247; Delegate, Terms), `TermSetWrapper.value` (250–251; Delegate), `TermSetWrapper.field` (254–255; Delegate), `TermSetWrapper.termset` (258–259; Delegate, Terms), `TermSetWrapper.dtype` (262–263; Delegate, Terms), `TermSetWrapper.__getattr__` (265–270; Delegate), `TermSetWrapper.__len__` (278–279; Terms), `TermSetWrapper.__iter__` (281–285; Terms), `TermSetWrapper.__multi_validation` (287–298; Terms), `TermSetWrapper.append` (300–320; Terms), `TermSetWrapper.extend` (322–341; Terms), `TypeConfigurator.__init__` (350–356; Terms), `TypeConfigurator.get_config` (362–377; Terms), `TypeConfigurator.load_type_config` (380–410; Terms), `TypeConfigurator.unload_type_config` (412–417; Terms)
* **testing/testcase.py**: `TestCase.assertRaisesWith` (21–27; Raises), `TestCase.assertWarnsWith` (29–35; Raises), `TestCase.assertContainerEqual` (37–80; Same), `TestCase._assert_field_equal` (82–128; Same), `TestCase._assert_data_equal` (130–158; Same), `TestCase._assert_array_equal` (160–223; Same), `TestCase.assertBuilderEqual` (225–253; BuilderEq), `H5RoundTripMixin.validate` (344–358; Same)
* **utils.py**: `docval_macro` (44–54; DocShare, Rows), `get_docval_macro` (57–67; Rows), `check_type` (70–115; ClassGen, Docval, Rows), `__shape_okay_multi` (118–122; Docval), `__shape_okay` (125–132; Docval), `__is_uint` (135–136; Docval), `__is_int` (139–140; Docval, Ids), `__is_float` (143–144; Docval), `__is_bool` (147–148; Docval), `__check_enum` (168–179; Docval), `__parse_args` (191–390; ClassGen, Docval), `get_docval` (398–414; DocShare), `fmt_docval_args` (431–458; Utils), `call_docval_func` (485–503; Utils), `__resolve_type` (506–527; DocShare), `docval` (537–684; ClassGen, DocShare, Docval), `getargs` (764–789; Utils), `popargs` (792–818; Utils), `popargs_to_dict` (821–839; Utils), `ExtenderMeta.pre_init` (853–859; Hooks), `ExtenderMeta.post_init` (864–872; Hooks), `ExtenderMeta.__init__` (874–883; Hooks), `get_data_shape` (886–925; Docval, Utils, Validate), `to_uint_array` (938–954; Sparse), `is_ragged` (957–968; Utils), `LabelledDict.__init__` (1022–1028; LabelledDict, Multi), `LabelledDict.__getitem__` (1040–1066; LabelledDict), `LabelledDict.__setitem__` (1068–1083; AllObj, LabelledDict, Multi), `LabelledDict.add` (1085–1091; LabelledDict, Multi), `LabelledDict.__check_value` (1093–1096; LabelledDict, Multi), `LabelledDict.pop` (1098–1103; LabelledDict, Multi), `LabelledDict.popitem` (1105–1115; LabelledDict, Multi), `LabelledDict.clear` (1117–1123; LabelledDict, Multi), `LabelledDict.__delitem__` (1125–1130; LabelledDict, Multi), `LabelledDict.setdefault` (1132–1134; LabelledDict), `LabelledDict.update` (1136–1138; LabelledDict), `StrDataset.__init__` (1144–1149; Delegate), `StrDataset.__getattr__` (1151–1152; Delegate)
* **validate/errors.py**: `Error.__init__` (24–27; VErr, Validate), `Error.name` (30–31; Validate), `Error.reason` (34–35; Validate), `Error.location` (38–39; Validate), `Error.location` (42–43; VErr, Validate), `Error.__str__` (45–46; VErr, Validate), `Error.__format_str` (49–53; VErr, Validate), `Error.__repr__` (55–56; VErr), `Error.__hash__` (58–65; VErr), `Error.__equatable_str` (67–82; VErr), `Error.__eq__` (84–85; VErr), `DtypeError.__init__` (94–102; VErr, Validate), `MissingError.__init__` (108–112; VErr), `MissingDataType.__init__` (120–128; VErr), `IncorrectQuantityError.__init__` (142–146; VErr, Validate), `ExpectedArrayError.__init__` (155–161; VErr, Validate), `ShapeError.__init__` (170–176; VErr, Validate), `IllegalLinkError.__init__` (187–191; VErr), `IncorrectDataType.__init__` (203–209; VErr)
* **validate/validator.py**: `check_type` (45–89; Validate, Vtypes), `get_iso8601_regex` (92–97; IsoDate), `get_string_format` (103–112; IsoDate, Validate), `get_type` (119–182; Validate), `check_shape` (185–207; Validate, Vtypes), `ValidatorMap.__init__` (214–242; Validate, Vmap), `ValidatorMap.__rec` (244–250; Validate, Vmap), `ValidatorMap.namespace` (253–254; Validate, Vmap), `ValidatorMap.valid_types` (258–266; Validate, Vmap), `ValidatorMap.get_validator` (271–283; Validate), `ValidatorMap.validate` (287–299; Validate), `AttributeValidator.validate` (349–387; Validate), `BaseStorageValidator.validate` (403–418; Validate), `DatasetValidator.validate` (431–457; Validate), `GroupValidator.__init__` (471–472; Validate), `GroupValidator.validate` (476–480; Validate), `GroupValidator.__validate_children` (482–505; Validate, Vmatch), `GroupValidator.__validate_presence_and_quantity` (507–514; Validate, Vmatch), `GroupValidator.__construct_missing_child_error` (516–528; Validate, Vmatch), `GroupValidator.__incorrect_quantity` (531–537; Vmatch), `GroupValidator.__construct_incorrect_quantity_error` (539–544; Validate, Vmatch), `GroupValidator.__validate_child_builder` (546–555; Validate), `GroupValidator.__get_child_validators` (566–605; Validate), `GroupValidator._remove_duplicates` (608–618; VErr, Validate), `SpecMatches.__init__` (624–626; Vmatch), `SpecMatches.add` (628–629; Vmatch), `SpecMatcher.__init__` (640–643; Vmatch), `SpecMatcher.unmatched_builders` (646–652; Vmatch), `SpecMatcher.spec_matches` (655–657; Vmatch), `SpecMatcher.assign_to_specs` (659–670; Vmatch), `SpecMatcher._best_matching_spec` (672–700; Validate, Vmatch), `SpecMatcher._filter_by_name` (702–710; Validate, Vmatch), `SpecMatcher._filter_by_type` (712–731; Validate, Vmatch), `SpecMatcher._filter_by_unsatisfied` (733–746; Validate, Vmatch)

### Functions not modelled

* **__init__.py**: nothing of this file
* **_due.py**: nothing of this file
* **array.py**: `Array.__init__`, `Array.data`, `Array.__len__`, `Array.get_data`, `Array.__getidx__`
* **backends/hdf5/h5_utils.py**: `H5Dataset.__init__`, `H5Dataset.io`, `H5Dataset.regionref`, `H5Dataset.ref`, `AbstractH5TableDataset._get_utf`, `AbstractH5TableDataset.__iter__`, `AbstractH5ReferenceDataset.dtype`, `BuilderH5RegionDataset.get_inverse_class`, `H5SpecReader.__init__`, `H5SpecReader.__read`, `H5SpecReader.read_spec`, `H5SpecReader.read_namespace`, `H5RegionSlicer.__init__`, `H5RegionSlicer.__read_region`, `H5RegionSlicer.__getitem__`, `H5RegionSlicer.__len__`, `H5DataIO.link_data`, `H5DataIO.maxshape`
* **backends/hdf5/h5tools.py**: `HDF5IO.comm`, `HDF5IO._file`, `HDF5IO.driver`, `HDF5IO.aws_region`, `HDF5IO.__check_path_file_obj`, `HDF5IO.__resolve_file_obj`, `HDF5IO.load_namespaces`, `HDF5IO.__check_specloc`, `HDF5IO.get_namespaces`, `HDF5IO.copy_file`, `HDF5IO.close_linked_files`, `HDF5IO.__chunked_iter_fill__`, `HDF5IO.__is_ref`, `HDF5IO.__queue_ref`, `HDF5IO.__rec_get_ref`, `HDF5IO.mode`, `HDF5IO.set_dataio`
* **backends/io.py**: `HDMFIO.can_read`, `HDMFIO.source`, `HDMFIO.write_builder`, `HDMFIO.open`, `HDMFIO.close`, `HDMFIO.__enter__`, `HDMFIO.__exit__`, `HDMFIO.__del__`
* **build/builders.py**: `BaseBuilder.location`, `BaseBuilder.location`, `BaseBuilder.attributes`, `RegionBuilder.__init__`, `RegionBuilder.region`
* **build/classgenerator.py**: `CustomClassGenerator.__new__`, `CustomClassGenerator._get_container_type`, `CustomClassGenerator._ischild`, `CustomClassGenerator.apply_generator_to_field`, `CustomClassGenerator._get_attrs_not_to_set_init`
* **build/manager.py**: `BuildManager.namespace_catalog`, `BuildManager.type_map`, `BuildManager.get_proxy`, `BuildManager.__active_prebuilt`, `BuildManager.__is_active_builder`, `BuildManager.__conthash__`, `BuildManager.__bldrhash__`, `BuildManager.get_cls`, `BuildManager.get_builder_name`, `BuildManager.get_subspec`, `BuildManager.get_builder_ns`, `BuildManager.get_builder_dt`, `BuildManager.is_sub_data_type`, `TypeMap.register_generator`, `TypeMap.get_container_ns_dt`
* **build/objectmapper.py**: `_constructor_arg`, `_object_attr`, `_unicode`, `ObjectMapper.no_convert`, `ObjectMapper.spec`, `ObjectMapper.get_container_name`, `ObjectMapper.__is_reftype`
* **common/__init__.py**: `register_class`, `register_map`, `__get_resources`, `_get_resources`, `get_manager`, `validate`, `get_hdf5io`
* **common/io/alignedtable.py**: nothing of this file
* **common/io/multi.py**: nothing of this file
* **common/io/resources.py**: nothing of this file
* **common/io/table.py**: `DynamicTableMap.get_attr_value`
* **common/multi.py**: nothing of this file
* **common/resources.py**: `HERD._add_key`, `HERD._add_file`, `HERD._add_entity`, `HERD._add_object`, `HERD._add_object_key`, `HERD._add_entity_key`
* **common/table.py**: `DynamicTable._repr_html_`, `DynamicTable.generate_html_repr`, `DynamicTableRegion.__repr__`
* **container.py**: `_set_exp`, `_exp_warn_msg`, `HERDManager.link_resources`, `HERDManager.get_linked_resources`, `AbstractContainer.data_type`, `Container.css_style`, `Container.js_script`, `Data._validate_new_data`, `Data._validate_new_data_element`, `DataRegion.data`, `DataRegion.region`, `MultiContainerInterface.__new__`, `MultiContainerInterface.__add_article`, `MultiContainerInterface.__join`, `Row.__eq__`, `Row.__str__`, `Table.__len__`
* **data_utils.py**: `GenericDataChunkIterator.__iter__`, `GenericDataChunkIterator.__reduce__`, `GenericDataChunkIterator._get_maxshape`, `GenericDataChunkIterator._get_dtype`, `GenericDataChunkIterator._to_dict`, `GenericDataChunkIterator._from_dict`, `GenericDataChunkIterator.recommended_chunk_shape`, `GenericDataChunkIterator.recommended_data_shape`, `GenericDataChunkIterator.maxshape`, `GenericDataChunkIterator.dtype`, `DataChunkIterator.from_iterable`, `DataChunkIterator.__iter__`, `DataIO.valid`
* **query.py**: `Query.__build_operation`, `Query.__and__`, `Query.__or__`, `HDMFDataset.__build_operation`, `HDMFDataset.__getitem__`, `HDMFDataset.__init__`, `HDMFDataset.dataset`, `HDMFDataset.dtype`, `HDMFDataset.__len__`, `HDMFDataset.__iter__`, `HDMFDataset.__next__`, `HDMFDataset.next`, `HDMFDataset.append`, `ReferenceResolver.get_inverse_class`, `ReferenceResolver.invert`
* **region.py**: `RegionSlicer.__init__`, `RegionSlicer.data`, `RegionSlicer.region`, `RegionSlicer.target`, `RegionSlicer.slice`, `RegionSlicer.__getitem__`, `RegionSlicer.__len__`
* **spec/catalog.py**: `SpecCatalog.__deepcopy__`
* **spec/namespace.py**: `SpecNamespace.types_key`, `SpecNamespace.full_name`, `SpecNamespace.contact`, `SpecNamespace.author`, `SpecNamespace.version`, `SpecNamespace.date`, `SpecNamespace.name`, `SpecNamespace.doc`, `SpecNamespace.schema`, `SpecNamespace.get_source_files`, `SpecNamespace.get_source_description`, `SpecNamespace.catalog`, `SpecNamespace.get_spec`, `SpecNamespace.get_registered_types`, `SpecNamespace.get_hierarchy`
* **spec/spec.py**: `DtypeHelper.simplify_cpd_type`, `ConstructableDict.build_const_args`, `Spec.__init__`, `Spec.doc`, `Spec.name`, `Spec.parent`, `Spec.build_const_args`, `BaseStorageSpec.resolved`, `BaseStorageSpec.get_data_type_spec`, `BaseStorageSpec.get_namespace_spec`, `BaseStorageSpec.attributes`, `BaseStorageSpec.linkable`, `BaseStorageSpec.id_key`, `BaseStorageSpec.type_key`, `BaseStorageSpec.inc_key`, `BaseStorageSpec.def_key`, `BaseStorageSpec.data_type`, `BaseStorageSpec.quantity`, `DatasetSpec.dims`, `DatasetSpec.dtype`, `DatasetSpec.default_value`, `DatasetSpec.value`, `DatasetSpec.dtype_spec_cls`, `GroupSpec.is_inherited_target_type`, `GroupSpec.is_overridden_target_type`, `GroupSpec.groups`, `GroupSpec.datasets`, `GroupSpec.links`, `GroupSpec.dataset_spec_cls`, `GroupSpec.link_spec_cls`
* **spec/write.py**: `SpecWriter.write_spec`, `SpecWriter.write_namespace`, `YAMLSpecWriter.__init__`, `NamespaceBuilder.name`
* **term_set.py**: `TermSet.__repr__`, `TermSet._repr_html_`, `TermSet.view_set`, `TermSet.__schemasheets_convert`, `TermSet.__enum_expander`, `TermSetWrapper.__getitem__`
* **testing/testcase.py**: `H5RoundTripMixin.setUp`, `H5RoundTripMixin.tearDown`, `H5RoundTripMixin.setUpContainer`, `H5RoundTripMixin.test_roundtrip`, `H5RoundTripMixin.test_roundtrip_export`, `H5RoundTripMixin._test_roundtrip`, `H5RoundTripMixin.roundtripContainer`, `H5RoundTripMixin.roundtripExportContainer`
* **testing/utils.py**: nothing of this file
* **testing/validate_spec.py**: nothing of this file
* **utils.py**: `__format_type`, `__fmt_str_quotes`, `__check_enum_argtype`, `__sig_arg`, `__builddoc`, `__sphinxdoc`, `__googledoc`, `pystr`, `LabelledDict.label`, `LabelledDict.key_attr`, `StrDataset.__repr__`, `StrDataset.__len__`, `StrDataset.__getitem__`
* **validate/errors.py**: `MissingDataType.data_type`
* **validate/validator.py**: `Validator.__init__`, `Validator.spec`, `Validator.vmap`, `Validator.validate`, `Validator.get_spec_loc`, `Validator.get_builder_loc`, `AttributeValidator.__init__`, `BaseStorageValidator.__init__`, `DatasetValidator.__init__`, `_resolve_data_type`, `GroupValidator.__construct_illegal_link_error`, `GroupValidator.__cannot_be_link`
<!-- end generated -->
