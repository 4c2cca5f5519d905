# Formal model of graphrox: design

Source under study: `/repo` (graphrox-rs, graphrox-c, graphrox-py). Nothing there is built or changed.
The model and the proofs are a Lean 4 project in `lean/` (Mathlib 4.33.0 is available to it, no `require`).

## Layout

| directory | content |
|---|---|
| `lean/Verif/Model/*.lean`  | the code, function by function; every definition cites file and lines in `/repo` |
| `lean/Verif/Spec/*.lean`   | small independent specifications (abstract graph, abstract map, block counts, byte layout, text grid, true averages) |
| `lean/Verif/Lemmas/*.lean` | helper lemmas about the model |
| `lean/Verif/Props/*.lean`  | the property theorems (`C01_…`, …), each with an `example` showing that its hypotheses are met by a concrete non-trivial case |
| `lean/Verif/Validation/*.lean` | tests of the model: the unit tests and documentation examples of `/repo` replayed on it, with the expected values written there (not proofs of properties) |

## Modelling decisions

* **u64 values** are `Nat`; `U64_MAX = 2^64-1`. Every arithmetic operation that can leave the range is explicit:
  `checked_*` gives `none`, `saturating_add` is `min`, unchecked `+ * -` go through a build `Profile`
  (`debug` = panic, `release` = wrap). Ids above `U64_MAX` do not exist in Rust; the model treats them like `U64_MAX` (ignored), so theorems
  quantified over all naturals cover all u64 ids.
* **usize** has a parameter `usizeMax` (theorems hold for every value `≤ U64_MAX`, covering 32- and 64-bit targets);
  `try_reserve_exact` has an oracle parameter `alloc : Nat → Bool` saying which sizes can be allocated.
* **Outcome** is `Res α = ok a | err GraphRoxError | panic`, error messages verbatim.
* **HashMap / HashSet**: `HMap V` = association list with distinct keys (`HashSet` = `HMap Unit`, as in std). The iteration order is adversarial:
  every iterating function takes a `HashOrder`, an arbitrary permutation that may differ per call, per table and per column; theorems quantify over it.
* **Iterators** are the `next` state machine of the code; draining it is proved to be the expected enumeration.
* **f64** is `F64 = nan | inf sign | fin q` with `q : ℚ` and IEEE-754 round-to-nearest-even (`rnd`, with subnormals and overflow to infinity)
  after every operation. `-0.0` is identified with `0.0`; C116 proves that this makes no difference (`Model/Signed.lean` keeps them apart).
  `f32` entries (`Model/F32.lean`) are the same values with binary32 rounding and range.
  Thresholds are arbitrary `F64` values, including NaN, infinities and rationals that are not doubles (a superset).
* **Strings/bytes**: strings are `List Char` (only ASCII is ever written), byte buffers `List Nat` with values < 256 / `List (Fin 256)`; buffer writes are bounds-checked (`panic` when out of range).
* **C API**: a heap of numbered handles, `0` = null; use of a dead handle or of one of the wrong kind is an explicit `ub` outcome.
* **Overlapping calls** (C129): `Model/CSteps.lean` has the C functions a second time, as sequences of single accesses to memory. `C129_same` proves that they do the same when not interrupted.
* **Packaging**: the choice of the shared library (`__init__.py:5-34`) and `build.rs` (`Model/Packaging.lean`), without the file system.
* **Python**: every method of `__init__.py` (`Model/Py.lean`) as a sequence of ctypes allocations, calls of the C model and reads of C memory.
  Objects are numbered; a program is any list of constructor calls, method calls and requests to collect an object (`__del__`), which has no effect
  while an iterator refers to the object. Integer arguments are unbounded and are reduced modulo 2^64 / 2^usize as ctypes does. `Model/PyArgs.lean` is the same for arguments of any type (integer, float, anything else).

* **Work** (C124): `Model/Work.lean` has the functions a second time, counting steps: hash table accesses, calls of `next`, bytes and characters,
  iterations of bit loops. `C124_same` proves that they return what the functions of the model return. Simplification: an access and a call of `next` count
  as one step each (in std a `next` skips unused slots, so iterating costs the capacity of a table; growing a table is not counted).

### Not modelled
Memory exhaustion other than through `try_reserve_exact`; HashMap internals and hashing; `entry_count` wrap-around after 2^64 insertions
(C58 proves it needs more than 2^63 edits); the accesses inside one object (C117 interleaves whole calls, C129 the accesses of calls to memory, where a graph with its tables,
a matrix or a buffer is one cell; the allocator is atomic); `unsafe fn undirected_from_unchecked` and a raw `CompressedGraphBuilder::finish` as sources of
"reachable" graphs (their contract is on the caller; both are modelled, C89 and C91 say what they do);
file errors other than a missing sample file; the calling convention of the C ABI (C122 models the declarations and the layout of the structs, and assumes that equal declarations on both sides deliver values); in Python: objects that pretend to be numbers (`c_uint64` instances, `_as_parameter_`, own comparison operators), use of private
fields and of the `_c_graph` parameter, reference cycles and threads; ctypes temporaries are taken to live until the method returns.

## Trusted base

* The Lean 4 kernel and the three standard axioms `propext`, `Quot.sound`, `Classical.choice` (checked for each theorem by the gate). No other axioms, no `sorry`, no `native_decide`.
* The correspondence between `lean/Verif/Model` and `/repo`, by reading (each definition cites its source lines).
  `Verif/Validation` replays the unit tests of graphrox-rs, graphrox-c and graphrox-py, and the `///` documentation examples of graphrox-rs, on the model as a check of this reading (the C and Python tests also check that no memory is left); the tests are condensed (deviations are noted in the files), and the code itself was never run.
  `checks/samples.py` compares two data files that the code did write: the blocks of `sample-graphs/ca-HepPh.cgphrx` are exactly those that level 2
  keeps of `sample-graphs/ca-HepPh.gphrx`, with the bit positions of `Spec.blockEdge` (27038 blocks, 59851 edges).
  `checks/abi.py` compares the 47 functions and the structs as written in `lib.rs`, `gphrx.h` and the ctypes declarations: names, number, order and
  types of arguments and results agree (`GphrxCompressedGraphBuilder` is declared in `lib.rs` only and never used). `checks/abi_tables.py` checks the tables of `Model/Abi.lean` (C122) against the three files.
* std semantics as listed above (HashMap/HashSet as finite maps with arbitrary order, IEEE doubles, `to_be_bytes`, slices, formatting of integers).

## Mutation tests

`seeded/LOG.jsonl` lists wrong edits made to a scratch copy of the model, one line per edit.

* `theorems_failed` are theorems of the manifest whose statement is *false* in the edited model: there, the implication from the statement to `False` was
  proved (no `sorry`, same axioms). Other theorems of the manifest may be false as well; not every pair of edit and theorem was tried.
* `theorems_not_compiling` (14 older entries) are theorems whose proof no longer compiles in the edited model. This only shows that the proof depends on
  the edited code.
* `theorems_tightened` are theorems that were made stronger, or added, because an edit left the theorems of a broken claim provable.
* `S1` is an equivalent edit: no query or text can tell it from the original.

Theorems of the manifest that no edit of the model can falsify, since they speak of the specification or of one concrete witness only: `*_full_false`,
`C44_tiny`, `C94_rounds_to_one`, `C59_covers`, `C60_covers`, `C93_not_shown`, `C102_flip`, `C110_ascii`, `C113_reserved`.

## Plan per property

Format: what is modelled; how it is proved.

* C01 – `Graph` ops over `AdjMatrix`; simulation relation to the abstract graph `AGraph` (Finset of pairs + size), induction over histories.
* C02, C03, C04 – well-formedness invariant preserved by every constructor and edit (`Reachable` induction).
* C05, C06, C07, C08 – one-step effect theorems stated on the public queries. C07 is false at `u64::MAX` targets: negation + `_partial`.
* C09 – iterator state machine; `collect` is a permutation of the entry list, fused after `None`.
* C10, C11 – lists/degrees against the set of pairs; double counting with Finset sums.
* C12 – corollary of C01 (abstract adds commute and are idempotent).
* C13 – loop of `undirected_from` over the iterator.
* C14–C20 – byte codec; big-endian read/write inverse lemmas; decoder loop characterised by the list of parsed pairs; independent spec of the format.
* C21–C30 – block counts, float threshold lemmas, builder loop, bit lemmas; C23 false as documented: negation + exact actual rule.
* C31–C37 – compressed codec; C35, C36, C37 false for crafted bytes: negations with concrete witness byte strings + `_partial`.
* C38–C48 – pooling and approximation with the IEEE model; C41, C44, C45(b>10^9), C46 false in corners: negations + `_partial`.
* C49–C51, C56, C57 – string builders with bounds-checked buffers; C57 false: negation + `_partial`.
  `C57_exact` decides every case: the dot of the greatest entry is traced through all later writes (`Lemmas/TextWrong.lean`).
* C52–C55 – matrix histories against abstract maps; C53, C55 false in corners: negations + `_partial`.
* C58 – counter bounds by induction over histories.
* C59–C62 – every exported C function is a `Call` executed on a heap (`Model/CApi.lean`); `Spec/CApi.lean` gives an independent relation
  `Meaning` (what one call returns and what it does to memory), `Valid` (the documented preconditions) and `Run` (sequences of calls, of writes by
  the caller to its own cells, and of drops). `Call.outcome` shows that `exec` implements `Meaning`; the properties are read off it, C60 by
  induction over runs. Simplifications: every object (also an empty boxed slice) has an address of its own, no interior pointers,
  programs that write into buffers the library returned are covered by C127 only, allocation failure aborts are not modelled.
* C72 – `Spec/Py.lean` gives Python objects as plain values (`AObj.means`, `pyStep`); `Lemmas/PySim.lean` proves a simulation between the wrapper running
  on C memory and these values, for each method and then for runs. Everything else about Python follows from it.
* C63, C64 – corollaries for one call in any reachable program; C63 false at `-len`: negation + `_partial`.
* C73 – induction over the run for the object's own value + C01.  C74 – C18, C66, C15 through the simulation; false (wrong exception): negation + `_partial`.
* C75 – every method is shown not to panic, from the Rust properties; false for huge precisions: negation + `_partial`; `C75_aborts_iff` (Props/Aborts.lean) is the exact rule, for all precisions and blocks, by C109.
* C76 – induction over the run: iterator position, list kept alive and unchanged.
* C77 – the simulation (C72); no text contains a zero (C110), so `CString::new` never refuses one; a panic of the Rust method is an abort.
* C78 – C32, C21 through the simulation.
* C71 – invariant over runs of C calls: every live object is reachable in Rust; then the Rust properties apply. False for texts too large: negation + `_partial`; `C71_aborts_iff` (Props/Aborts.lean) is the exact rule for all arguments, by C109; strings by C110.
* C79, C80, C81 – `scripts/generate_graph.py` modelled on top of the Python model (`Model/Scripts.lean`); the renumbering loop is shown to compute the
  rank of an id; C79 and C80 false: negation + `_partial`, and the exact behaviour
  for non-negative ids (`C79_exact`, `C80_exact`, `C80_no_edges`, Props/TextExact.lean). `int`, white space and the largest `np.full` are parameters.
* C82 – blocks are counted by their edges (fibres of `(u/8, v/8)`).
* C83 – a matrix that only sees increments holds `min count 2^53` (`f64`), `min count 2^24` (`f32`), the exact or wrapped count (integers); from C54.
* C84 – an `f32` matrix prints like the `f64` matrix with the same values (same reserved widths), and no `f32` has more than the 39 digits
  that `as i128` can show, so no panic; the content statement is false for −0.5: negation + `_partial`.
* C65 – builder sequences.
* C66 – the decoder loop characterised against the list of parsed blocks; exact acceptance condition.
* C67 – float formatter modelled exactly (`Model/F64Fmt.lean`); the text is a grid of `IsDecimal` texts, the width being found from the extreme entries (`SqMatrix.extremes`).
* C68 – false for entries in (-1, 0) and from 2^127 on: negations + `_partial` for the content; no panic is proved for all
  entries with at most 39 integral digits (a number is at most two characters wider than its cell).
  `C68_exact`/`C84_exact` (Props/TextWidth.lean): the length of a returned text determines its cell width, so it is a right grid iff all texts fit.
* C70 – same formatter with no decimals; false (zeros show as `0.`): negation + exact text.
* C69 – `Display`; false when the capacity check fails: negation + exact condition.
* C85 – `Spec/ResRel.lean` lifts relations to outcomes; each operation is shown to respect the relation "no query can tell them apart".
* C86, C87 – the specifications (block counts, true averages, thresholds) under transposition and inclusion; C87 uses monotonicity of rounding.
* C88 – at thresholds ≤ 0 an approximation is the image of the edges under division (from C45); false beyond 10^9: negation + `_partial`;
  `C88_exact` (Props/Sharp.lean): for every pair of dimensions with 10^9 < b₁b₂ < 2^32, both at least 2, a star graph with at most 5 edges tells the two apart.
* C89 – `undirectedFromUnchecked`; one-step edits without the symmetry invariant, acceptance by `ValidGraphFile.distinct`.
* C90 – `Model/Display.lean`; from C49 and C50.
* C91 – invariant of arbitrary builder calls (`BuilderInv`), then C66 and the codec lemmas of C32.
* C92 – the fields of the byte layout (`compressedFile_fields`) determine every field and the list of blocks; no decoding involved.
* C93 – C51 gives the grid; the line ends determine the number of rows, the length then the cell width, and the cells the words.
* C94 – `Spec/Ieee.lean` defines rounding by nearness and even significands, for any binary format; `Lemmas/Ieee.lean` proves that the rounding functions of the model are exactly that. C39 and C44 are stated with it too.
* C95 – `Spec/Checks.lean` lists the checks on the two file formats as propositions over the bytes, each with its text; `Props/DecodeErrors.lean` proves that the error is the text of the first check that fails. The bytes of the two headers in `C95_shipped_samples` are those of the files in `/repo/sample-graphs`.
* C96, C97 – sums of the entries, from C38 and C39; `blockCount_split` for pooling in two steps.
* C98 – C22 against C41 (both exact for blocks of 8), file size from C31.
* C99 – `Shifted k g g'`; block counts of shifted graphs, then the same lemmas as C86.
* C100 – magic numbers and lengths of C18/C66, texts from C95.
* C101, C102 – the effect of `List.set` on the fields of `Spec/Format.lean`, then C17/C18 and C34/C66; counting for undirected files (a lost edge is
  implied by its reverse) and number of ones per byte for entries. C34 also says what is decoded: the last block listed for a position counts.
* C103 – `Spec/PyArgs.lean` says which calls are understood, and as which calls with integers; every other call is proved to raise before it reaches
  the library. Programs with arguments of any type are reduced to programs with integers, so that C72–C77 apply to them.
* C104 – `Model/Demo.lean` is `scripts/demo.py`, with the two files as parameters.  Its texts follow from C49, C67 (a decimal text is determined by its
  number) and the rule of `approximate`; the literal example is then computed, and the two thresholds become counts of edges because averages are monotone.
* C105 – the comparison of `approximate` is monotone in the count, because rounding is; K is the least count that passes (Props/Cutoff.lean). The second
  part bounds the error of both roundings by half an edge.
* C106, C107 – the array after the renumbering loop is described by remainders modulo its length (`placed`, Lemmas/ScriptsMod.lean), then as C79 and C80;
  no condition on ids or lines is left (Props/TextAll.lean). Simplified: the model names one exception for an array that cannot be made (`MemoryError`,
  or `ValueError` for a negative length); numpy has others for lengths that do not fit into 64 bits.
* C108 – composition of the exact rules of C79, C80 and C81 (Props/Pipeline.lean); the size of the file written bounds the memory the second script
  needs. Edges that `graph_from_text_file` loses are noticed by `validate_graph` only if
  the last edge of the text is among them.
* C109 – the digit counts of pooled entries are bounded (averages are at most 2^53 even with wrapped areas, or infinite), so `k ≤ 39`; then a case
  analysis of the steps of `to_string_with_precision` (Lemmas/TextPanic.lean, Props/TextPanic.lean). Assumes of the platform (`Usual`,
  Spec/TextRoom.lean): `format!` accepts widths up to some limit ≥ 42 that is small compared with `usize` (65535 in current Rust), and no buffer is
  larger than half the address space. Spec: room, reserved digits and the panic condition written out with the dimension and `d`.
* C110 – the buffer is never larger than the template that is written over it (also when its size wrapped around), so no initial zero byte is left
  (Lemmas/TextChars.lean).
* C111, C112 – a pooled entry and an edge of the approximation are functions of the number of edges of the block (C105 and the rule of pooling), a
  compressed word of that number and of the edges in it; equal edges, or a bijection between the edges of two blocks, give equal numbers
  (Props/Locality.lean). The renamed history is compared in the abstract graphs of C01.
* C113 – `Spec/TextFloat.lean` writes out the reserved width, what is left of the text from a cell on (`charsLeft`) and the cases of a panic; the fold that
  writes the entries panics iff one entry does not fit in the rest of the buffer, in whatever order they are written (Lemmas/TextSpill.lean,
  Props/TextFloat.lean). `ShownAs` and `CellTexts` are shown to determine the texts. An `f32` matrix prints like the `f64` matrix of its values (C84).
* C114 – `Model/PyCopy.lean` adds `copy.copy` and direct calls of `__del__` to the model of the wrapper. A program's memory is known from the simulation of C72;
  the first `free` removes the object and every later use of the handle is undefined in the model of the C interface. A copied iterator is reached by
  `iter` and `next` (Props/PyCopy.lean). Empty lists are left out: Rust allocates nothing for them.
* C115 – `Valid` of C60 is shown to be necessary, call by call: each function looks at every argument before anything else can go wrong. Aborts: `Meaning` and a panic exclude each other. Memory: induction over runs, forwards (an object that is there was returned) and by C60 (an object stays until freed).
* C116 – `Model/Signed.lean` repeats the code that computes with floating-point numbers with `-0.0` as a value of its own; the matrices of the two models are images of each other under all operations (`Lemmas/MapValues.lean`).
  A zero is never stored by `set_entry` (it compares equal to zero), a number of the format plus one is zero only if the exact sum is, and pooling multiplies numbers without sign. The hash order is
  existentially quantified, since the type of the entries is an argument of it.
* C117 – a schedule is a list of actions of threads (calls with the value they returned, reads and writes of the program's memory). Each of the 47 functions is shown to depend on, and change, only the addresses that `Call.pointers`/`Call.writes` list (a simulation between runs on two memories that agree there, with an allocator that picks the same address); hence independent neighbours commute, and one interleaving of race-free threads is turned into any other by swaps. `C117_threads`: an interleaving of race-free threads is possible iff every thread can run alone (one direction by moving the thread to the front, the other by running the threads on memories of their own next to the common one). Calls are atomic here; C129 removes that.
* C118 – `Model/Packaging.lean` has the table of `_load_gphrx_lib`; the specification says it with names, substrings as `l ++ x ++ r` and letters by their codes. False (`armv7l`): negation, exact rule, `_partial`.
* C119 – paths are lists of components, a panic makes the build fail. False (`CARGO_TARGET_DIR`, other target directories): negation, exact rule, `_partial`.
* C120 – programs name their objects by the command that made them; the runs of a program with two allocators are related by a bijection between live addresses, kept by each call. Numbers written by the program as pointers (`(void*)5`) are not in the program language, and neither is pointer arithmetic. `C120_programs`: programs that decide by what they have seen what to do next (`Decider`, Spec/Deciding.lean).
* C121 – counts the tables and entries of the model's `HashMap`s; capacities and what the allocator adds are not modelled. False (deleted edges): negation, exact rule by histories (a table is there iff some prefix of the history gives the vertex an outgoing edge), `_partial`; bounds for the decoders.
* C122 – `Model/Abi.lean` holds the declarations of the three files as tables (functions, structures, types); a calling convention is any function pair that delivers values when both sides use the same layouts, a platform any pointer width, alignments and byte order. The tables are compared by evaluation, which covers all functions; what follows from agreement (values arrive, lists are read as written) is proved for all values, lists, conventions and platforms. Layout rule of `repr(C)`, of C compilers and of ctypes: taken to be the same.
* C123 – the iteration order of a `HashMap` is any order (`HashOrder`); the theorems say exactly which files result over all orders. That every order occurs is not claimed of the standard library, only that nothing more can be said without knowing its hash function. Recovers an order from a grouped list by ranking columns and rows by their first place in the list. Accepted files that list an edge twice (undirected), or interleave the edges of two vertices, are read but never written: `C123_written`, `C123_written_compressed`.
* C124 – counted versions of the functions (`Model/Work.lean`), proved to return the same (`C124_same`); step counts proved exactly (iteration, writing, in-edges of directed graphs) or bounded. `C124_full` (work in proportion to the edges) is false because empty tables are visited (`C124_leak`); `C124_partial` for graphs without empty tables. The decoders are linear in the length of the file for all bytes.
* C125 – `Larger P P'` compares platforms; every function of the model that takes a platform is shown to deliver on `P'` what it delivers on `P` (`Carries`), function by function, and any two platforms are compared through a third that is larger than both. Hash orders are the same on both sides (C85 covers changing them). `C125_full` (pictures at every precision) is false in release builds where `1 + decimal_digits` wraps; `C125_partial` when 43 characters more than the precision fit `usize`, or with overflow checks on the smaller machine. Error messages may differ, which error or panic a failing machine gives is not compared. Whole C programs (`C125_programs`): an execution without failing calls can be repeated step by step, with the same addresses, on a larger machine. Whole Python programs (`C125_python`): a program in which no call to the library failed sees the same values and exceptions (also those for names that do not exist or arguments that are refused) on a larger machine.
* C126 – `Has g u n S` ties a graph to a direction, a vertex count and a finite set of pairs; the history that adds the last vertex and then the pairs builds any of them (through C01). `FromCompress` is the condition on a compressed graph; the graph it comes from is its decompression. For approximations every vertex is blown up to a full block, and the cutoff of C105 decides between `AllGraphs` and `NoEdges`.
* C127 – `WRun` (Spec/Buffers.lean) is `Run` plus steps in which the program overwrites a buffer that the library returned, keeping kind and length (a string keeps its size in bytes and stays free of zeros; contents that are not UTF-8 are left out). One-call statement by relational rules over the C model (`Rel`), for allocators that do not look at the contents of buffers (`Blind`); the statements about whole programs by induction on `WRun`, reusing the one-call lemmas of C60, C71 and C115.
* C128 – `Spec/History.lean` says what an edit puts in, takes out and makes sure of (`Puts`, `Takes`, `Ensures`), independently of `AGraph`. `C128_edit` is proved through the abstraction of C01; everything else (last edit wins, exchange of edits exactly if there is no `Conflict`, any order, no effect, undoing) follows from it by logic and induction over histories.
* C129 – `Model/CSteps.lean` has the functions of the C interface once more, as programs whose single loads, stores, allocations and frees are visible; `C129_same` proves that a program that is not interrupted is the function of `Model/CApi.lean`. `Reaches` (Spec/Overlap.lean) says which accesses a program makes, allowing for repeated reads and any intermediate contents of the objects it changes, makes or frees. Executions are lists of accesses of numbered actions; accesses that do not race are exchanged until the actions are one after another. `C129_race_matters` is a lost update, so the hypothesis is needed. Simplifications: memory is sequentially consistent (for programs without races C and Rust guarantee that), one object is one cell, an allocation is one step.
* C130 – `missing` (Spec/Losses.lean) counts the pairs that are edges of one relation and not of another. `C130_compress` splits it by blocks (`sum_blocks`, `blockCount_fiber`), `C130_tight` and `C130_degrees_tight` build, with `C126_graphs`, graphs that attain the bounds. The bounds for approximations follow from the cut-off of C105, summed over the blocks.
* C131 – `Walk`, `IsDist` and `OccursIn` (Spec/Paths.lean) know nothing of the code. The theorems move them along the maps `id` (edits, C87; compression, `compress_edges`) and `u ↦ u / e` (approximation, C45). `C131_converse_fails` has the counterexamples for the other directions.
* C132 – steps carry the number of their part (Spec/Parts.lean); `ownNumber` translates object numbers. Both directions in one induction over the values of C72: the objects of a part are found among all objects by their creators, iterators refer to lists of the same part, and each call does the same in both worlds. Calls are taken to be made one at a time (`ctypes` releases the interpreter lock during a call; overlapping accesses are the subject of C129, for C programs). `C132_sharing_matters` shows that the condition is needed.
* C133 – commands as in C120, each with the number of its part (Spec/PartsC.lean). Two invariants in one induction: names not yet freed stand for different addresses, and the memory of the whole program looks to the part like the memory of the part alone (`Alike` of C120, with the names of the other parts left out). A command of another part changes only what its names stand for and what it allocates (`step_frame`, from the locality lemma of C117). Unlike C117, the condition is on names, so a part may get an address that another part has freed. Calls do not overlap in time (C129 is about overlapping accesses). `C133_sharing_matters` shows that the condition is needed.
* C134 – collections are steps of the execution (`PyCall.collect`), `ownSteps` leaves them out, `Tidy` says that no object is used after the program let it go (Spec/Gc.lean). Both directions by simulation on the values of C72: the world with collections is the one without, minus objects the program has let go; a live iterator keeps its list. `C134_use_matters` shows that the condition is needed.
* C135 – `SamePlatforms` replaces hash orders and allocators of an execution at every step, `SeenAlike` and `Reordered` say what may differ (Spec/PyOrders.lean). Simulation on the values of C72: graphs and compressed graphs related by the observations of C85, matrices by being pooled from such graphs (their texts are then equal by C70), lists by permutation. `Next` and `Obeys` describe programs that read files they wrote before, whose bytes may differ between the runs: reading files with the same records gives the same graph (C17, C18, `decoded_spec`; the blocks of a written compressed graph are distinct). Other arguments are the same in both runs. `C135_order_shows` shows that the orders of lists can differ.
* C136 – the programs of C120 (Spec/Addresses.lean). `ContentAlike`, `ObsAlike` say what may differ; `WholeLists` says that lists of vertices returned by the library go back to `gphrx_add_vertex` only as a whole. By C120 both runs may use the same allocator, one that looks only at which addresses are in use; then memories stay related address by address (`HeapO`), call by call (`exec_alike`, all 47 functions), with the congruences of C85 and the file lemmas of C135. The beginning of a written file is never accepted (`counted_take`), the order of the targets of `add_vertex` does not matter (`addVertex_perm`). `C136_part_shows` shows that the condition on lists is needed: which vertex is first in a returned list decides what a later `gphrx_does_edge_exist` answers. `C136_programs`: programs with loops and branches whose decisions do not depend on orders (`run_transfer`: the commands of one run are then those of the other).

## Where the code and the documented or expected behaviour disagree

Each of these has a negation theorem (`…_full_false`) with a concrete witness beside the `_partial` theorem.

* C07 – `add_vertex` of a new vertex whose listed targets are all `u64::MAX` does not behave as claimed (such targets are ignored).
* C23 – tiny graphs: the claim about compressing them is false; the exact rule of the code is proved.
* C35, C36, C37 – compressed files with duplicate blocks, or with an asymmetric "undirected" block set, are accepted by the decoder: stored edge count,
  symmetry and re-saving then differ from what a real compressed graph has.  The count is exact, and re-saving works, if and only if no block is
  listed twice.
* C41 – rounding: a full 7×7 block has a computed average just below 1, so threshold 1 misses it.
* C42, C44, C45 – blocks of dimension above 10^9: averages smaller than the internal minimum threshold 1e-18 are lost (C45 gives the exact rule below 2^32; rounding matters only for nine edges in a block of dimension 3·10^9; `C42_exact` and `C44_exact` say for which graphs and thresholds).
* C46 – blocks of dimension 2^32 or more overflow `block * block`: a debug build panics, a release build computes with the product modulo 2^64 (`C46_release`).
* C53 – `set_entry` of 0 over an existing entry does not remove the entry, in both matrix types. The partial theorems give the exact result of every call.
* C55 – `increment_entry` that turns −1 into 0 leaves a stored zero. `C55_count_exact` says for every history what is counted: the places kept by it.
* C57 – precision > 0 with negative entries of other lengths, and `i128` matrices, print misaligned or wrong text.
* C67 – (not a negation) a pooled graph without edges prints cells `d + 40` characters wide.
* C68 – −0.5 corrupts the text; 2^150 panics (C113: exactly when). Two equal matrices may print differently: one that was filled and emptied again reserves one more
  character per cell than one that never held anything (C113).
* C88 – an edge dropped by one approximation with 2^31 × 2^31 blocks is kept by two smaller steps; such edges exist for all products above 10^9.
* C114 – (not a negation) `copy.copy` of an object of the Python module aliases its handle and leads to a double free; `duplicate` is the safe copy.
* C91 – (not a negation) the documentation warns of buffer overflows in `to_bytes` after wrong builder calls; there are none.
* C83 – (not a negation) counting in `f32`/`f64` matrices stops silently at 2^24 / 2^53.
* C84 – −0.5 corrupts the text of an `f32` matrix as well.
* C69 – `Display` panics where `to_string_with_precision` reports a capacity error.
* C70 – with precision 0 zeros print as `0.`, other entries as `0`/`1`.
* C71 – `gphrx_matrix_to_string` aborts the program (panic in `extern "C"`) when the text is too large; one vertex 2^40 and block dimension 1 suffice.
* C63 – `l[-len]` is the last element instead of the first, `l[-len-1]` does not raise, and a negative index into an empty list raises `ZeroDivisionError`.
* C74 – `from_bytes` on invalid bytes raises `TypeError` ('str' object is not callable, from `Graph.__name__()`) instead of the intended `ValueError`.
* C75 – `to_string(-1)` aborts the interpreter (Rust panics on 2^64-1 decimals, and the panic cannot unwind through `extern "C"`).
* C103 – `compress` with a float below 1 or above 64 is accepted (the Readme of graphrox-rs still shows `compress(0.2)`, which does not even compile there), with one between 1 and 64, even 8.0, it raises; `l[-0.5]` is the last element.
* C79 – `graph_from_text_file`: an id that begins no line is numbered −1, i.e. `u64::MAX`, so its edge is ignored silently; if it is larger than all
  others by 2 or more the script fails with `IndexError` (`C79_index_error`).
* C80 – `validate_graph` tests `id0`, `id1` (left over from reading the file) instead of `id_pair`: it looks at the last edge only.
* C104 – (not a negation) the repository has no `sample-graphs/ca-AstroPh.gphrx`, so `demo.py` ends with `FileNotFoundError` in its last part.
* C95, C104 – (not a negation) the two compressed sample files in the repository are of version 1, so the current decoder rejects them as outdated.
* C118 – on 32-bit ARM (`armv7l`, `armv6l`), and on anything else with `arm` in its name, the module tries to load the 64-bit ARM library instead of raising its `ImportError`.
* C119 – `build.rs`: with `CARGO_TARGET_DIR` set the header is copied to the top of the target directory and not next to the library; with a target directory of another name (`--target-dir`) the build fails.
* C121 – `zero_entry` (both matrices) removes the entry but keeps the table of its column, also when it is empty; adding and deleting edges at ever new vertices makes memory grow without bound. Saving and loading the graph frees it.
* C124 – going through a graph visits the empty tables that deletions leave: after `2k` edits that leave no edge it takes `2k + 1` steps.
* C125 – in a release build for 32 bits, `to_string_with_precision(2^32 - 1)` of a 1×1 matrix without entries gives a picture of 43 characters, because `1 + decimal_digits` is 0; a 64-bit build gives more than `2^32` characters.
* (no theorem) the docstring of `Graph.__init__` says "undirected by default"; the default parameter makes it directed.
