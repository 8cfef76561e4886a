# A Lean 4 model of libLAS

The model is written by reading `/repo` as text. Nothing is generated from the C++ source and nothing is
run against it; the correspondence is by citation: every model definition names the file and lines it models, and says
where it simplifies.

Layout of `lean/Verif/`:

* `Model/` - the code, function by function (total, computable definitions);
* `Spec/` - what the properties speak about, independent of the model's helpers;
* `Lemmas/` - proofs about the model that are steps, not properties;
* `Props/` - the property theorems, each with a concrete case that meets its hypotheses (`example`), and the
  counterexamples where the code violates a property.

A property that the code violates is recorded as `partial`: a theorem with the suffix `_partial` proves it under
hypotheses, and further theorems (`..._refuted_...`, `..._wrong`, `..._undefined`, ...) prove that what the hypotheses exclude
really fails, on a concrete execution of the model.

## Trusted base

* Lean 4.33.0's kernel.
* Axioms: at most `propext`, `Classical.choice`, `Quot.sound` (what Lean core and Mathlib use). No axioms of
  our own, no compiled-code decision procedures. `decide +kernel` is used for closed statements; it is evaluated by the kernel.
* The faithfulness of the model to the C++ text (hand-checked).
* The C++ semantics assumed: 8-bit bytes, two's complement, `int` of 32 bits, `size_t` of 64 bits, IEEE doubles, release
  build (no `DEBUG`/`_DEBUG`: `check_stream_state` is a no-op and `assert` is compiled out).

## Conventions

* bytes are `BitVec 8`; fixed-width integers are `BitVec w`; doubles stored in files and records are their
  64-bit patterns (`BitVec 64`) where the library only copies them, and values of the type `Fl` where it computes.
* `Outcome` has three constructors: a value, a C++ exception, and undefined behaviour (`ub`). A theorem that a call is `ok` says
  in particular that it has no undefined behaviour on the modelled paths.
* mutation is returned state; a throwing call returns the state at the throw where the state matters afterwards.
* streams are a byte array with position and state flags (`good`/`eof`/`fail`), after the
  `std::istream`/`std::ostream` rules used by the code.

## Arithmetic

`Model/Float.lean`: a double is a NaN, an infinity with a sign, or a rational. Every operation is the exact rational operation
rounded once to nearest, ties to even, with gradual underflow and overflow to infinity. Signed zeros are one value (so division by
zero is a NaN). All computations on coordinates - points, re-homing, boxes, filters, transforms,
summaries, chipper, index - use this type, so rounding is in the theorems. A conversion to an integer of a
value out of range is `ub`.

## What is modelled

| model | source |
|-------|--------|
| `Basic`, `Bytes` | `detail/binary.hpp`, `detail/endian.hpp`, `detail/private_utility.hpp`; both byte orders |
| `Classification` | `classification.hpp/.cpp`, `color.hpp/.cpp` |
| `Float` | the platform |
| `Point` | `point.hpp/.cpp`: all accessors, `Validate`, `equal`, `SetHeader` |
| `Schema` | `schema.hpp/.cpp`, `dimension.hpp/.cpp` without XML and printing |
| `Header` | `variablerecord.cpp`, `header.cpp`, the part of `spatialreference.cpp` that moves variable records |
| `Stream` | `std::istream`/`std::ostream`, `read_n`, `write_n` |
| `Writer` | `detail/writer/{header,point,writer}.cpp`, `writer.cpp` |
| `Reader`, `Iterator` | `detail/reader/{header,reader}.cpp`, `reader.cpp`, `iterator.hpp` |
| `CachedReader` | `detail/reader/cachedreader.cpp` |
| `Factory` | `factory.cpp`: file types by name |
| `Bounds`, `Filter` | `bounds.hpp` for `double`, `filter.hpp/.cpp` |
| `Transform` | `transform.cpp`: `TranslationTransform` |
| `Summary` | `utility.cpp`: accumulation |
| `Chipper` | `chipper.cpp` |
| `Lasblock` | `apps/lasblock.cpp`: `write_tiles`, and `main` with `--write-points` |
| `Sha1` | `src/detail/sha1.cpp`, `include/liblas/detail/sha1.hpp` in a release build (no asserts) |
| `Las2txt` | `apps/las2txt.cpp` without `--header` and messages; `utility.cpp`: `GetStreamPrecision`. `log10` is a parameter, number formatting is the platform's |
| `Zip` | `src/detail/zippoint.cpp`, `src/detail/reader/zipreader.cpp`, in a build with LASzip. LASzip itself is a parameter (`LASzip`) with a contract in `Spec/Zip.lean` |
| `ZipWriter` | `src/detail/writer/zipwriter.cpp` and the LASzip part of `src/detail/writer/header.cpp`; the compressor is part of the parameter `LASzip` |
| `Txt2las` | `apps/txt2las.c`; `sscanf` is a parameter, the command line and messages are not modelled, records are written after the second pass instead of during it |
| `Ts2las` | `apps/ts2las.cpp`, `apps/ts2las.hpp`; command line, verbose output and filters (never looked at by the writer) are not modelled |
| `Las2colThreads` | `apps/las2col.c`, the threads: `readFile`, `writeFile`, `main` as transition systems between lock operations; the unlocked reads of `stop` are atomic; opening a file is part of reading it |
| `Morton` | `apps/las2pg.c`, `apps/las2col.c`: `Expand1`, `EncodeMorton2D`, `morton2D_encodeOscar`, the factors and `--check` |
| `Las2pg` | `apps/las2pg.c` `main` from the opened reader to the bytes written (little-endian hosts; command line left out) |
| `Las2col` | `apps/las2col.c` `readFile`: arrays, letters, the loop over the points (little-endian hosts; command line left out) |
| `IndexLife` | `src/index.cpp` `Prep`, `Validate`, `BuildIndex` (grid choice, reading the points), `SaveIndexInLASFile`, `SaveIndexInStandAloneFile`, `ClearOldIndex`, `GetHeaderFromVLRs` path (renaming the temporary file over the input is the caller's and left out) |
| `IndexAgain` | `src/index.cpp` `Index()`, `~Index`, `Prep` on an object that has been prepared before (reader made or given, readiness, number of the data records), `Filter` without a reader |
| `SchemaXml` | `schema.cpp` `GetPTree`, `LoadPTree`, `LoadDimensions`, the constructor from records; `dimension.cpp` `GetPTree`; the bundled `property_tree` (tree, XML writer, rapidxml parser, number translator). Classic locale, libstdc++ number extraction; the texts that can be read as a `double` are a parameter; the depth of the C++ stack is not modelled |
| `FullDisk` | `writer.cpp`, `point.cpp` writing to a file of limited size, unbuffered; the header already written |
| `MapAlloc` | `opt_allocator.hpp`, `Chipper::Allocate`; heap unlimited, mapping inside a file succeeds |
| `SpatialRef` | `spatialreference.cpp` in a build without GDAL and libgeotiff |
| `SummaryXml` | `point.cpp` (`GetPTree`), `utility.cpp` (`Summary::GetPTree`), `c_api.cpp` (`LASReader_GetSummaryXML`) |
| `SummaryLife` | `utility.cpp` (`Summary`: copying, assignment, destruction), `apps/lasinfo.cpp` (`check_points`), `apps/laskernel.cpp` (`SummarizeReader`) |
| `WriterSession` | `writer.cpp`, `detail/writer/writer.cpp`, `detail/writer/point.cpp`: `SetHeader`, `WriteHeader`, `SetFilters`, `SetTransforms` on an open writer |
| `ReaderSession` | `reader.cpp`, `detail/reader/reader.cpp`: `SetHeader`, `Reset` on an open reader, with the lifetime of the header object |
| `HeaderTransforms` | `detail/reader/reader.cpp`: `SetTransforms`, `TransformPoint`, `ReadNextPoint`, `ReadPointAt` with `bNeedHeaderCheck`; `transform.cpp`: `SetHeader` and the clipping test of the GDAL transforms |
| `PointLife` | `c_api.cpp`: points, headers and readers as objects that are made, copied, changed and destroyed; `point.cpp`: where `m_header` leads. Of a header what a point uses of it |
| `ProjectId` | `c_api.cpp`: `LASHeader_{Get,Set}ProjectId`, `LASHeader_{Get,Set}GUID`, `LASGuid_*`. Boost.UUID is outside the repository: `string_generator` and `operator<<` are modelled after its source; `strict` is the check for the end of the text that Boost has from 1.67 on. `LASGuid_Create` copies a variable that was never set: its content is a parameter. Destroying handles is not modelled |
| `HeaderXml` | `Header::GetPTree`, `VariableRecord::GetPTree`, `SpatialReference::GetPTree` (build without GDAL, libgeotiff, LASzip), `LASHeader_GetXML`, `LASPoint_GetXML`, `lasinfo --xml` with `--no-check` or `--point`. The text of a double is a parameter, as are the dimension members outside `Dim` and the WKT text outside `Header` |
| `Handles` | `LASVLR_*`, `LASColor_*`, `LASSRS_*`, `LASSchema_*`, `LASHeader_AddVLR/GetVLR/DeleteVLR/SetSRS/GetSRS/SetSchema/GetSchema/SetCompressed/Compressed`, `LASPoint_GetColor`, as programs over any number of handles (build without GDAL and libgeotiff). Left out: `LASHeader_Destroy` and other header functions (C54, C100), `LASSRS_GetGTIF/SetGTIF/SetVerticalCS`, the text of the reference a header gives |
| `LasCommon` | apps/lascommon.c `SummarizePoints` and `repair_header`: counters, the two points (coordinates and all other attributes), the error stack looked at after each fetch, the comparison of counts with `(unsigned char)`. Left out: printing (`print_header`, `print_point_summary`), overflow of `int` counters (they wrap) |
| `Progress` | apps/laskernel.cpp `term_progress` (and its copy in `las2ogr`) with its static variable, and the loops that call it; flushing is not modelled |
| `Copies` | src/reader.cpp, src/writer.cpp: constructors, assignment and destruction of `Reader` and `Writer` over a counted pointer (`boost::shared_ptr`), around the sessions of `ReaderSession` and `WriterSession`; each file on a stream of its own that outlives the objects, a program ends with its first exception |
| `IndexCell`, `IndexBuild`, `IndexOutput`, `IndexHeader`, `IndexQuery` | `index.cpp`, `detail/index/{indexcell,indexoutput}.cpp` |
| `CApi` | `c_api.cpp`: error stack, handle checks, point, header, variable record, reader and writer functions, stream registry |
| `FloatText`, `Kernel`, `KernelFilters`, `KernelHeader`, `KernelTransforms`, `Las2las` | `apps/las2las.cpp`, header functions, `OptechScanAngleFixer`, `GetFilters` and the header and point parts (without GDAL) of `GetTransforms` of `apps/laskernel.cpp`, numbers in `property_tree` |

## What is not modelled

The codec of LASzip (a parameter with a contract in C75 and C76), GDAL and libgeotiff (projections, WKT, the re-projecting and
colour-fetching transforms; a spatial reference is an opaque list of variable records), the command lines of the applications and
the applications not listed above (`lasinfo`, `las2ogr`, `las2oci`, `lasindex` and others, but for the parts named above), other XML and JSON rendering, allocation
failure. The library itself starts no threads; those of `las2col` are modelled (C80).

## Simplifications

General:

* the byte-order code is modelled for both hosts (C01); the file-level model is for a little-endian host;
* the library is built without LASzip, GDAL and libgeotiff, in release mode;
* the parsing of numbers (`lexical_cast`, `std::istream >>`), XML parsing of schema records and bytes read from
  indeterminate memory are parameters: the theorems hold for every such function (C87-C90 put the library's own XML code in
  place of the parameter).

Files (C13-C15, C20-C30, C47, C49):

* a write reaches the file when and in the order it is issued; a crash (C22) is any prefix of that sequence of writes;
* filters and transforms of a reader are functions of a point (the stateful thinning filter has its own theorem, C32); a transform
  keeps the length of the record;
* transforms that move points to another header (`bNeedHeaderCheck`) are in C99 only; `SetHeader` on an open reader is in C98, on an
  open writer in C97;
* the theorems on reading assume that the length of the file fits the arithmetic of the reader (`SaneLength`);
* a cached reader after a failed `Reset` keeps its object.

Boxes, filters, shifts, statistics (C31-C36, C40, C46, C50, C51):

* `Bounds<T>` is taken at `T = double`;
* signed overflow in `TranslationTransform` is undefined, with a flag saying what a wrapping machine does.

Chipper (C37-C39): `std::sort` is a parameter of which only the standard's guarantee is used; a NaN coordinate is undefined; `Load` is on a
list of coordinates; counters stay below 2^32; one call of `Chip()`.

Index (C41-C45, C52): the numbers of cells, the bounds and the memory limit are parameters (the theorems hold for all); writes to the temporary file
succeed; the sizes of records are not reduced modulo 2^32; index records of version 1.1 or later with data records number 43 (what the
library writes).

C interface (C53-C60): a handle is NULL or an object; a handle to freed memory occurs only in C57; texts of exceptions are a parameter;
`new` does not fail; spatial reference functions and some string-returning functions are left out here (GUID functions are in `ProjectId`, XML texts in `SummaryXml` and `HeaderXml`).

Applications (C61-C64): `las2las` from the input file on (`apps/las2las.cpp` `main` and `process` with the parts of `apps/laskernel.cpp` that
read, repair and rewrite a header); the command line is already parsed; output files can be created and differ from each other and from the
input; a double printed with 16 digits and parsed back is rounded correctly twice (platform); no reprojection, no compression. Filter options (C65): the text conversions of `boost::program_options`
and `std::istream` are parameters (`Lexical`); the thinning option is not among the options modelled. Header options (C67): words with their `atoi` and `atof` values are given; the file named by `--add-vlr` is a parameter.

## Properties

| id | model | proof |
|----|-------|-------|
| C01 | `unrolled_byte_loops`, dispatch, swap macros, both hosts | bit extensionality; counterexample for big-endian hosts |
| C02-C04 | record buffer with fixed offsets, all accessors | refinement to a plain record of attributes, for all setter sequences |
| C05 | float model of `GetX`/`SetX`/`sround` | error analysis over rationals; counterexample for extreme scales |
| C06 | `Validate`, `IsValid` | case analysis over the byte |
| C07 | `Point::equal` | symmetric proved, reflexive for valid points; transitivity refuted by a witness |
| C08 | `SetHeader` | refinement to the attribute record |
| C09, C10 | bit packing | bit extensionality, histories |
| C11 | fixed char arrays with `strncpy` semantics | list lemmas |
| C12 | VLR list and counter | invariant over operation sequences |
| C13-C15 | header/VLR writer and reader | codec inverse; counterexamples for the fields that do not survive |
| C16-C18, C48 | schema multi-index | invariant over operation sequences |
| C19 | header comparison by address | counterexample |
| C20-C22, C49 | writer state machine over a byte stream | invariant: stream = header ++ records; every prefix of the write log |
| C23-C26, C28-C30, C47 | reader state machine over a byte stream | refinement to an index into the record list |
| C27 | cached reader | simulation with the uncached reader; counterexamples |
| C31-C34 | filter predicates | direct |
| C35, C50 | range and box operations on doubles | order lemmas; counterexample for `intersects` |
| C36, C51 | expression parser, shift | direct, counterexample for `x*-2` |
| C37-C39 | chipper | invariants over the recursive split |
| C40 | summaries | fold invariants, permutation invariance |
| C41, C42 | building cells with a temporary file | loop invariant: memory and file together hold the runs |
| C43, C52 | index records | codec inverse over groups of cells |
| C44 | query with a window | error analysis of the cell numbers, then case analysis per point |
| C45 | iterator | refinement to a position in the list of items of the whole query |
| C46 | string matching | direct |
| C53 | stack and reset loop | closed form of the loop, induction over histories |
| C54-C56 | wrappers around the C++ calls | lifting of C02, C20, C21, C23; counterexamples for silent failures |
| C57 | map of streams | invariant over histories |
| C58-C60 | raw data, comparison, counts | direct; counterexamples |
| C61-C64 | las2las loop, header repair, text round trip of doubles | loop invariant over the points read; lifting of C20, C23, C40; error bound for 16 digits |
| C65 | list of filters built from the options | one lemma per option, then conjunction; counterexamples for the options that misbehave |
| C66 | constructor of the writer | closed form of the padding choice and of the outcome |
| C67 | header edits, then the run | closed form of each edit; lifting of C61 and C66; counterexamples |
| C68 | `SetSchema` | re-adding a dimension of a reachable schema is the identity up to offsets |
| C69 | `--min-offset`: two passes over the input | a reset reader delivers the same points (C26), the summary gives the lowest raw coordinate (C40), re-homing to that offset is nearest (C08), then the loop of C61 to C64 with re-homed records |
| C70 | the options of las2las that change points | all 256 angles by evaluation in the kernel; a successful shift is the chain of its terms, each nearest (C05 without range condition); lifted to runs with C61 |
| C71 | lasblock --write-points | the loop over the reader delivers all coordinates; C37/C38 for the tiles; random access (C23) after any reads; writer, repair and rewrite of each tile as in C61/C62 |
| C72 | the SHA-1 class | the state is the hash of all whole blocks and the rest of the last; induction over pieces, then over calls; the standard as a separate specification |
| C73 | las2txt: letters, decimals, the loop over the points | a separate reading of decimals; induction over letters and points; text cut back into rows |
| C74 | las2txt, then `SetX`, `SetY`, `SetZ` | the printed decimal is the nearest multiple of the last decimal; its distance to the coordinate in units of the scale is below one half with all rounding errors (C05 lemmas) |
| C75 | `ZipReader` over an abstract `LASzip` | invariant: the decompressor is ready for the record at the cursor; induction over the calls; filters by induction over what is left; a concrete codec meets the contract |
| C76 | `ZipWriter` and `ZipReader` over an abstract `LASzip` | invariant: header block and variable records intact below the compressor, which has taken the records so far; reopening as for C20; a concrete codec meets the contract; refutations by evaluation |
| C77 | `Txt2las.main`: two passes over the lines, header, writer; `sscanf` abstract | invariants of both passes by induction on the lines; both passes see the same numbers; the writer and reader theorems of C20, C66; rounding lemmas for the bounds; a concrete scanner meets the contract; refutations by evaluation |
| C78 | `Las2txt.main` followed by `Txt2las.main` | the lines of C73 are rows and comments of C77; numerals denote one number; the rounding theorem of C74 gives the stored integers back |
| C79 | `Ts2las.main`: header, loop over the shots, writer | the specification encodes surveys and shots as bytes; induction on the shots with the bytes still ahead in the stream; setter theorems of C02; writer and reader theorems; rounding lemmas for time and placement; short files by the stream's failure state |
| C80 | `Las2col`: one step function for each kind of thread between two lock operations, `run` over any list of choices | an inductive invariant over all states reached (who holds which file, what every thread may still do, what is written); order from counting residues; termination from a measure that every step decreases; refutations by explicit schedules |
| C81 | `Morton`: the bit tricks on 64-bit words, the factors as doubles cut to `int64_t` | bit by bit equality with `Spec.Interleaves`; injectivity and monotonicity by induction on binary digits; counterexamples for decimal multiples and for `--check` |
| C82 | `Las2pg`: tuples from letters, the loop over the reader | `Spec.copyDecode` (a decoder of PostgreSQL's format) applied to the output; induction over the points delivered; each field against the library's own accessors; counterexamples |
| C83 | `Las2col`: arrays written at an index, composed with C80 | induction over the points delivered: what is written is the concatenation of elements; the program from C80 under every schedule; counterexamples |
| C84 | `IndexLife`: `chooseGrid` (`BuildIndex`'s choice of bounds and numbers of cells) on all doubles | rounding bounds for the quotients, monotonicity of rounding; `Spec.Square`, `Spec.ZParts`; counterexample for tiny heights |
| C85 | `IndexLife`: `prep`, `build`, `save`: the whole path from a reader through the copied file to the next `Prep` | composition of the reader, writer, index building and query theorems: the new file opens, has the same points and caller's records, its index is accepted and answers windows |
| C86 | `IndexLife`: `validate`, `clearOldIndex`, `prep` on files that carry an index | exact characterisation of acceptance; counterexamples (forcing a new index, stale index, names of the old index kept) |
| C87 | `SchemaXml`: the property tree, its XML writer and the rapidxml parser the library bundles (`writeXml`, `readXml`) | structural induction over trees: parsing inverts writing; the only hypotheses are usable element names and texts without zero bytes |
| C88 | `SchemaXml.parseSchema` and `Reader.adoptSchema` on arbitrary record bytes | a decreasing measure shows the parser always ends with a tree or an error; exact characterisation of when adopting the schema is undefined (X without Y or Z); an example file |
| C89 | `SchemaXml`: `GetPTree` against `LoadDimensions` on what the library itself writes | the version text `1.0` is refused as a 16-bit number; hence a round trip of a file drops a custom schema, with the points intact (composition with C20) |
| C90 | `SchemaXml`: `LoadDimensions` on records with a whole-number version | induction over the dimensions; exact dimensions, sizes and offsets; counterexample for the record length when the next free position is taken |
| C91 | `FullDisk`: points written to a file that cannot grow beyond a given size | induction over the points: outcome and file by the free space; the file is a crash state of C22; refutation for every list of points |
| C92 | `MapAlloc`: the static state of `opt_allocator<PtRef>`, `Chipper::Allocate`, the map file on disk | invariant over all histories of a process (runs, stores, destruction); exact condition for success; refutations for every history |
| C93 | `SpatialRef`: the record and text part of `SpatialReference` in a build without GDAL and libgeotiff | every history of a reference object keeps its records of that kind (induction), composed with C49 and C66; refutations for every text |
| C94 | `SummaryXml`: the trees of points and summaries and the C function; text of doubles as a parameter | the tree in closed form; C40 for the numbers, C26 for the reader before and after, C87 for the text |
| C95 | `SchemaXml` (the parser); documents, their texts and what they say in `Spec/XmlDoc` | mutual induction over the nodes of a document; a lemma for each kind of node, attribute and character reference; refutations for closing names and for comments in a schema text |
| C96 | `SummaryLife`: a world of summary objects and readers, live or gone, and where the extremes of each summary refer to | invariant of a summary nothing has remade, by induction over the history (setters keep a point's header); dead objects stay dead; refutations for copies and for `lasinfo` |
| C97 | `WriterSession`: an open writer with its header, count, record length of the point writer, filters, transforms; any sequence of calls | filters: simulation relation over the calls; rewriting: invariant of the stream (`Steady`) kept by every round, then the theorem on reading; refutations by the same invariant with the believed count, and by evaluation |
| C98 | `ReaderSession`: a reader with the header object of its header reader and whether a header was given since; any sequence of reads, resets and given headers | invariant (`Kept`): with the file's header the reader would be as in C26; simulation of reading under headers that agree; undefined behaviour exactly where the point's header was destroyed; evaluation for longer records |
| C99 | `HeaderTransforms`: a reader with the header its point refers to, `bNeedHeaderCheck` and transforms as functions on points that may move them and fail | simulation beside a reader without transforms (`Beside`), kept by every read and seek: after the first record of a read both hold the same record; converse cases computed from the same model; the 32-bit test by cases |
| C100 | `PointLife`: worlds of headers, points (record and address of the header) and readers; a separate program with values as the expectation | simulation for programs that leave headers of living points alone; an invariant (each point refers to the header it was given last, destroyed headers are those the program destroyed) for all others; refutations for all headers and records |
| C101 | `ProjectId`: the character loop of Boost's reader, its printer, the handle functions; spec: digits in four shapes, `Spells` relation | soundness and completeness of the loop by induction over the bytes; the file part from `header_round_trip_partial` |
| C102 | `HeaderXml` over the XML writer and parser of C87; spec: what a tree says at a path (`SaysText`, `SaysInt`) | closed form of the tree, round trip of C87, look-up of every path; injectivity of decimal texts |
| C103 | `Handles`; spec: the last value accepted (`lastOf`), the handle a call is for (`target`), the function it is of | what one call can do to the objects, induction over programs; refutations for every state |
| C104 | `LasCommon`; spec: counts by attributes (`cCountersRight`), the box of points (`IsBox`), smallest and largest attributes (`AttributeExtremes`), the box of a header (`HasBox`) | invariant of the loop over the points the reader gives; storing a coordinate just read is exact on well-conditioned axes (C05); a written file of 256 points for the refutation |
| C105 | `Progress`; spec: the text of a whole meter and its 41 marks | rounding is monotone and exact at the end (`rnd_mono`, `rnd_err`); invariant over the calls: what was shown is the text between two marks |
| C106 | `Copies`; spec: a ledger with the file each object stands for and the calls made for each file | invariant over the program: every implementation is held as often as the ledger says and is in the state of one object with those calls; then the theorems on sessions |
| C107 | `IndexAgain`: `Obj.prep` over histories of calls | induction over the history (the number of the data records stays 43); counting of the readers made; counterexamples (failed `Prep`, number kept, readers left) |

The exact theorems are in `MANIFEST.json`. The attempts against wrong programs are in `seeded/LOG.jsonl`.
