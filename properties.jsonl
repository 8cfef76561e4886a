{"id": "C01", "title": "Multi-byte values are stored little-endian on every host", "statement": "Storing an unsigned integer or an IEEE double into a LAS byte stream produces the same bytes, least significant first, whatever the byte order of the machine; loading those bytes gives back exactly the stored bit pattern, and storing what was loaded gives back exactly the original bytes.", "quantifier": "every width in bytes, every bit pattern, both host byte orders", "why_tests_cant": "2^64 bit patterns per double and a host byte order no test machine has", "anchors": ["include/liblas/detail/binary.hpp: load_forward, load_backward, load, store_forward, store_backward, store, endian_value", "include/liblas/detail/endian.hpp: LIBLAS_SWAP_BYTES", "include/liblas/detail/private_utility.hpp: read_n, write_n"]}
{"id": "C02", "title": "Point fields are independent", "statement": "After a successful setter call on a point, the matching getter returns the value that was set and every other field getter returns what it returned before.", "quantifier": "every point record of every point format (with any number of extra bytes), every field, every value accepted by its setter", "why_tests_cant": "the state space is 2^160 or more records times values; an overlap of two fields shows only on particular bit patterns", "anchors": ["src/point.cpp: Get*/Set* of RawX/Y/Z, Intensity, ScanFlags, Classification, ScanAngleRank, UserData, PointSourceID, Time, Color"]}
{"id": "C03", "title": "Return number, number of returns, scan direction and edge flags share one byte without interfering", "statement": "For each of the four packed scan attributes, a setter called with an in-range value makes its getter return that value and changes no other attribute; a setter called with an out-of-range value stores the value modulo the width of the attribute and still changes no other attribute.", "quantifier": "every point record, every 16-bit argument", "why_tests_cant": "every initial flag byte combined with every 16-bit argument of every setter; also invisible if only one attribute is checked after each set", "anchors": ["src/point.cpp: SetReturnNumber, SetNumberOfReturns, SetScanDirection, SetFlightLineEdge, GetReturnNumber, GetNumberOfReturns, GetScanDirection, GetFlightLineEdge"]}
{"id": "C04", "title": "GPS time and colour exist exactly in the formats that store them", "statement": "Setting time (colour) on a point whose format has no time (colour) throws and changes nothing, and getting it yields 0 (black); on formats that have it, the value set is the value read back bit for bit and no other field changes.", "quantifier": "every point format 0-3, every record, every 64-bit time pattern and every colour", "why_tests_cant": "all bit patterns including NaNs, and all formats with all extra-byte lengths", "anchors": ["src/point.cpp: SetTime, GetTime, SetColor, GetColor"]}
{"id": "C05", "title": "Scaled coordinates survive a get/set cycle", "statement": "Reading a coordinate as a double and storing that same double back leaves the stored 32-bit integer unchanged, and storing an arbitrary in-range double stores the nearest multiple of the scale (error at most half a scale unit plus the rounding error of the floating-point operations).", "quantifier": "every stored integer, every scale and offset within the stated magnitude limits, IEEE binary64 rounding to nearest", "why_tests_cant": "2^32 integers times all scale/offset pairs; rounding errors hit only rare combinations", "anchors": ["src/point.cpp: GetX, SetX (and Y, Z)", "include/liblas/detail/private_utility.hpp: sround"]}
{"id": "C06", "title": "A point is valid exactly when its packed fields are in range", "statement": "The validity test accepts a point exactly when its scan angle rank lies in [-90, 90] and its other checked members are in range, and never modifies the point.", "quantifier": "every point record", "why_tests_cant": "2^160 records", "anchors": ["src/point.cpp: Validate, IsValid"]}
{"id": "C07", "title": "Point comparison is an equivalence on points", "statement": "Point equality is reflexive, symmetric and transitive.", "quantifier": "every pair and triple of points", "why_tests_cant": "relations between all pairs/triples of inputs", "anchors": ["src/point.cpp: Point::equal", "include/liblas/point.hpp: operator=="]}
{"id": "C08", "title": "Re-homing a point to another header keeps its attributes", "statement": "Giving a point a header with another point format or record length keeps every attribute that both formats store (and its coordinates when scale and offset agree), drops only what the new format cannot hold, and never reads or writes outside the record.", "quantifier": "every source and target format and record length, every record", "why_tests_cant": "all pairs of formats times all records", "anchors": ["src/point.cpp: Point::SetHeader"]}
{"id": "C09", "title": "Classification byte packing", "statement": "Class number, synthetic, key-point and withheld flags share one byte: setting one reads back as set, leaves the other three unchanged, and a class number above 31 throws and changes nothing; the byte written to file is the one read back.", "quantifier": "every classification byte, every 32-bit class argument, every flag value", "why_tests_cant": "interference needs a particular combination of previous byte and argument", "anchors": ["src/classification.cpp: SetClass, GetClass, SetSynthetic, SetKeyPoint, SetWithheld", "include/liblas/classification.hpp"]}
{"id": "C10", "title": "Colour channels never truncate silently", "statement": "Building a colour from 32-bit channel values either stores exactly those three values or throws; it never stores a truncated value or mixes channels.", "quantifier": "every triple of 32-bit values", "why_tests_cant": "2^96 triples", "anchors": ["src/color.cpp: Color::Color", "include/liblas/color.hpp"]}
{"id": "C11", "title": "Fixed-width header text fields", "statement": "Setting the system id, software id (at most 32 characters), VLR user id (at most 16) or VLR description (at most 32) makes the getter return that text up to its first NUL, a longer text throws and leaves the object unchanged, and the padded form always has exactly the field width.", "quantifier": "every byte string of every length", "why_tests_cant": "unbounded string lengths and embedded NULs", "anchors": ["src/header.cpp: SetSystemId, GetSystemId, SetSoftwareId, GetSoftwareId", "src/variablerecord.cpp: SetUserId, GetUserId, SetDescription, GetDescription"]}
{"id": "C12", "title": "Variable record bookkeeping", "statement": "After any sequence of adding and deleting variable records, the advertised record count equals the number of records held, records keep their insertion order, deleting by user id and record id removes exactly the records with that pair, and deleting a non-existent index throws without change.", "quantifier": "every sequence of AddVLR, DeleteVLR, DeleteVLRs calls of any length", "why_tests_cant": "histories are unbounded", "anchors": ["src/header.cpp: AddVLR, DeleteVLR, DeleteVLRs, GetVLR, GetRecordsCount, GetVLRBlockSize"]}
{"id": "C13", "title": "Variable records survive a file round trip", "statement": "Writing a list of variable records whose stored length equals their data size and reading that many records back at the same place gives the same records in the same order.", "quantifier": "every list of variable records of any length with any payloads up to 65535 bytes", "why_tests_cant": "unbounded number and size of records", "anchors": ["src/detail/writer/header.cpp: WriteVLRs", "src/detail/reader/header.cpp: ReadVLRs"]}
{"id": "C14", "title": "Header fields survive a file round trip", "statement": "A header written to an empty stream and read back has the same version, identifiers, dates, format, record length, counts, scale, offset, bounds, project id, source id and reserved value.", "quantifier": "every header state a user can set", "why_tests_cant": "every combination of about thirty fields, including all double bit patterns", "anchors": ["src/detail/writer/header.cpp: Header::write", "src/detail/reader/header.cpp: ReadHeader"]}
{"id": "C15", "title": "The data offset points just past the header and variable records", "statement": "After a header is written to an empty stream, the data offset stored in the file is at least the header size plus the size of all variable records, equal to it plus the advertised padding, so point data never overlaps metadata.", "quantifier": "every header, every list of variable records, every requested offset and padding", "why_tests_cant": "arithmetic over unbounded record lists and all offset/padding combinations", "anchors": ["src/detail/writer/header.cpp: Header::write lines 145-176, WriteVLRs, WriteLAS10PadSignature"]}
{"id": "C16", "title": "The record length in the header is the sum of its dimensions", "statement": "For every point format 0-3 and any set of additional dimensions, the advertised record length equals the sum of the sizes of the dimensions in bytes, and the standard dimensions of the format lie at the byte offsets the point accessors use.", "quantifier": "every format, every list of extra dimensions", "why_tests_cant": "unbounded lists of extra dimensions with arbitrary bit widths", "anchors": ["src/schema.cpp: update_required_dimensions, CalculateSizes, GetByteSize", "src/header.cpp: GetDataRecordLength, SetDataFormatId"]}
{"id": "C17", "title": "Schema dimensions stay unique and ordered", "statement": "After any sequence of adding, removing and format changes, no two dimensions of a schema share a name or a position, dimension lookup by name finds exactly the dimension of that name, and enumeration is in position order.", "quantifier": "every sequence of AddDimension, RemoveDimension, SetDataFormatId calls", "why_tests_cant": "histories are unbounded", "anchors": ["src/schema.cpp: AddDimension, RemoveDimension, GetDimension, update_required_dimensions", "include/liblas/schema.hpp: IndexMap"]}
{"id": "C18", "title": "Changing point format keeps user dimensions or changes nothing", "statement": "Setting a supported point format replaces the standard dimensions and keeps all user-added dimensions in order; setting an unsupported one throws and leaves the header as it was.", "quantifier": "every schema, every format value", "why_tests_cant": "all schemas with arbitrary user dimensions", "anchors": ["src/schema.cpp: update_required_dimensions, SetDataFormatId", "src/header.cpp: SetDataFormatId"]}
{"id": "C19", "title": "A header equals its copy", "statement": "Comparing a header with a copy of itself reports equality, and headers that differ in a compared field are unequal.", "quantifier": "every header", "why_tests_cant": "all header states", "anchors": ["src/header.cpp: operator=="]}
{"id": "C20", "title": "What is written is what is read", "statement": "Opening a writer on an empty stream, writing any sequence of points and closing it produces a file from which a reader delivers exactly those records, in order, then reports the end, and whose header advertises exactly that number of points.", "quantifier": "every header with VLRs, every sequence of points of any length", "why_tests_cant": "unbounded sequences", "anchors": ["src/detail/writer/writer.cpp: WriteHeader, WritePoint, UpdatePointCount", "src/detail/writer/point.cpp", "src/detail/reader/reader.cpp: ReadNextPoint", "src/writer.cpp", "src/reader.cpp"]}
{"id": "C21", "title": "Appending keeps existing points", "statement": "Opening a writer on a stream holding a well-formed file with n points and writing m more yields a file with n+m points, the first n unchanged and the last m as written.", "quantifier": "every existing file, every sequence of appended points", "why_tests_cant": "unbounded sequences, all prior contents", "anchors": ["src/detail/writer/header.cpp: append branch of Header::write", "src/detail/writer/writer.cpp"]}
{"id": "C22", "title": "A crash before close leaves the previous point count", "statement": "If the writing process stops at any point before the writer is closed, the stream is a prefix of the complete output with the point count it advertised at opening; every point fully written before the crash has its bytes in place at its final offset.", "quantifier": "every crash point between API calls, every sequence of points", "why_tests_cant": "every prefix of every write history", "anchors": ["src/detail/writer/writer.cpp: ~WriterImpl, UpdatePointCount, WritePoint", "src/detail/writer/header.cpp"]}
{"id": "C23", "title": "Random access returns the requested point", "statement": "Reading the point at index n returns the n-th record for n below the advertised count and otherwise throws without changing the current point; seeking to n and then reading sequentially returns records n, n+1, ... .", "quantifier": "every file, every index, every reachable reader state", "why_tests_cant": "every history of reads and seeks before the call", "anchors": ["src/detail/reader/reader.cpp: ReadPointAt, Seek, ReadNextPoint", "src/reader.cpp"]}
{"id": "C24", "title": "Random access does not disturb sequential reading", "statement": "Interleaving random-access reads with sequential reads does not change which points the sequential reads deliver.", "quantifier": "every history of ReadNextPoint and ReadPointAt", "why_tests_cant": "histories are unbounded", "anchors": ["src/detail/reader/reader.cpp: ReadPointAt, ReadNextPoint"]}
{"id": "C25", "title": "Filtered reading delivers exactly the accepted points", "statement": "With filters set, successive reads deliver exactly the points all filters accept, in file order, each once, and then report the end.", "quantifier": "every file and every list of filters", "why_tests_cant": "unbounded sequences and arbitrary predicates; the failing case needs the accepted point in a particular position", "anchors": ["src/detail/reader/reader.cpp: ReadNextPoint, FilterPoint"]}
{"id": "C26", "title": "Reset starts over", "statement": "After resetting a reader, it delivers the same sequence of points and reports the same header and variable records as a freshly opened one.", "quantifier": "every file, every history before the reset", "why_tests_cant": "histories are unbounded", "anchors": ["src/detail/reader/reader.cpp: Reset", "src/detail/reader/header.cpp: ReadHeader, ReadVLRs"]}
{"id": "C27", "title": "Caching is transparent", "statement": "A reader created with a cache of any size delivers the same points and the same end-of-data and error results as an uncached one for the same sequence of calls.", "quantifier": "every cache size, every file, every sequence of ReadNextPoint, ReadPointAt, Seek and Reset", "why_tests_cant": "histories are unbounded; window boundaries fall differently for each cache size", "anchors": ["src/detail/reader/cachedreader.cpp"]}
{"id": "C28", "title": "Iterating visits every point once", "statement": "Iterating a reader from its begin iterator to the end iterator visits each point of the file exactly once, in order.", "quantifier": "every file", "why_tests_cant": "unbounded length", "anchors": ["include/liblas/iterator.hpp: reader_iterator"]}
{"id": "C29", "title": "Malformed headers are rejected, not misread", "statement": "Opening a byte stream whose signature is not LASF, whose data offset is smaller than its header size, whose compression bits are inconsistent or whose point format is unknown throws and yields no reader.", "quantifier": "every byte string of at least header length", "why_tests_cant": "all byte strings", "anchors": ["src/detail/reader/header.cpp: ReadHeader"]}
{"id": "C30", "title": "A truncated file never yields invented points", "statement": "If the stream ends before the advertised number of point records, reading past its end reports an error or end of data; it does not deliver a point that is not in the file.", "quantifier": "every truncation length of every file", "why_tests_cant": "every cut position", "anchors": ["src/detail/reader/reader.cpp: ReadNextPoint, ReadPointAt", "include/liblas/detail/private_utility.hpp: read_n", "src/detail/reader/point.cpp"]}
{"id": "C31", "title": "Attribute filters accept exactly the listed values, or exactly the others", "statement": "A classification or return-number filter of inclusion type accepts a point exactly when its attribute is in the given list; of exclusion type exactly when it is not.", "quantifier": "every list of values, every point", "why_tests_cant": "all lists of all lengths", "anchors": ["src/filter.cpp: ClassificationFilter::filter, ReturnFilter::filter"]}
{"id": "C32", "title": "Thinning keeps every n-th point", "statement": "A thinning filter of step n applied to a stream of points keeps exactly the points whose zero-based index is a positive multiple of n, however long the stream.", "quantifier": "every step, every stream length", "why_tests_cant": "unbounded streams; counter wrap-around", "anchors": ["src/filter.cpp: ThinFilter::filter"]}
{"id": "C33", "title": "Continuous value filters partition the points", "statement": "A continuous-value filter of exclusion type accepts exactly the points the inclusion type rejects, and comparison operators <, <=, >, >=, ==, != mean what they say.", "quantifier": "every threshold, operator and point", "why_tests_cant": "all doubles", "anchors": ["include/liblas/filter.hpp: ContinuousValueFilter"]}
{"id": "C34", "title": "Bounds filters accept exactly the points inside", "statement": "A bounds filter accepts a point exactly when every bounded dimension of the point lies within the closed interval of that dimension.", "quantifier": "every box, every point", "why_tests_cant": "all real coordinates, edges included", "anchors": ["src/filter.cpp: BoundsFilter::filter", "include/liblas/bounds.hpp: contains"]}
{"id": "C35", "title": "Box algebra", "statement": "Growing a box by a point or box yields the smallest box containing both, clipping yields the intersection, a box contains itself, containment is transitive, and two boxes intersect exactly when they share a point.", "quantifier": "every pair of boxes of equal dimension count", "why_tests_cant": "all real intervals in all dimension counts", "anchors": ["include/liblas/bounds.hpp: Range, Bounds, grow, clip, contains, intersects, equal"]}
{"id": "C36", "title": "Coordinate-shift expressions mean what they say", "statement": "An expression such as x+2.5, y-10, z*3 is parsed to that axis, that operator and that number, and any other text is rejected.", "quantifier": "every expression string", "why_tests_cant": "all strings", "anchors": ["src/transform.cpp: TranslationTransform::GetOperation, transform"]}
{"id": "C37", "title": "Chipping partitions the points", "statement": "Tiling a point set assigns every point to exactly one block.", "quantifier": "every point set of any size, every positive block capacity", "why_tests_cant": "unbounded sizes; index arithmetic over partitions depends on the size and capacity", "anchors": ["src/chipper.cpp: Load, Partition, Split, DecideSplit, RearrangeNarrow, FinalSplit, Emit"]}
{"id": "C38", "title": "Chipped blocks respect the capacity", "statement": "No block produced by tiling holds more points than the requested capacity.", "quantifier": "every point set size, every positive capacity", "why_tests_cant": "all size/capacity pairs", "anchors": ["src/chipper.cpp: Partition, Split, Emit"]}
{"id": "C39", "title": "Block bounds are tight", "statement": "The bounds reported for a block are the exact minimum and maximum coordinates of the points in that block.", "quantifier": "every point set", "why_tests_cant": "all coordinate multisets, ties included", "anchors": ["src/chipper.cpp: Emit, RearrangeNarrow, FinalSplit"]}
{"id": "C40", "title": "Point statistics are exact and order-independent", "statement": "After adding any sequence of points to a summary, the count, per-class, per-return and flag tallies equal the true tallies, minimum and maximum of every attribute equal the true extremes, and the result does not depend on the order of the points.", "quantifier": "every sequence of points", "why_tests_cant": "unbounded sequences and permutations", "anchors": ["src/utility.cpp: Summary::AddPoint, CoordinateSummary::AddPoint"]}
{"id": "C41", "title": "Every indexed point lies in exactly one cell", "statement": "Building a spatial index assigns every point inside the file bounds to exactly one cell, and the runs stored for the cells enumerate exactly the ids of their points, each once.", "quantifier": "every sequence of points", "why_tests_cant": "unbounded sequences; run-length limits at 255", "anchors": ["src/index.cpp: BuildIndex, IdentifyCell", "src/detail/index/indexcell.cpp: AddPointRecord, IncrementPointRecord"]}
{"id": "C42", "title": "The memory limit does not change the index", "statement": "Spilling cells to the temporary file and reloading them yields the same cell contents as keeping them in memory, for every limit.", "quantifier": "every memory limit, every sequence of points", "why_tests_cant": "every spill schedule", "anchors": ["src/index.cpp: PurgePointsToTempFile, LoadCellFromTempFile"]}
{"id": "C43", "title": "Index records survive serialisation", "statement": "Writing index cells into variable records of at most 65535 bytes, splitting and concatenating as needed, and reading them back yields the same cells in the same order.", "quantifier": "every list of cells of any size", "why_tests_cant": "sizes crossing the 65535 limit arbitrarily often", "anchors": ["src/detail/index/indexoutput.cpp: OutputCell, FinalizeOutput", "src/index.cpp: FilterOneVLR"]}
{"id": "C44", "title": "Index queries return exactly the points in the window", "statement": "Filtering with a spatial index returns exactly the ids of the points whose coordinates lie in the query window, the same as a full scan.", "quantifier": "every point set, every query window", "why_tests_cant": "all windows against all point sets; edge coincidences have measure zero", "anchors": ["src/index.cpp: Filter, SetCellFilterBounds, CellInteresting, SubCellInteresting, FilterOnePoint, IdentifyCell, IdentifySubCell"]}
{"id": "C45", "title": "Chunked index queries add up to the whole query", "statement": "Concatenating the chunks delivered by an index iterator gives the result of the unchunked query, for every chunk size.", "quantifier": "every chunk size, every query", "why_tests_cant": "all chunk sizes against all run layouts", "anchors": ["src/index.cpp: IndexIterator, FilterPointSeries, FilterOneVLR"]}
{"id": "C46", "title": "File type is inferred from the extension", "statement": "A file name is taken as LAZ or LAS exactly when the text after its last dot is laz or las in any letter case; everything else is unknown.", "quantifier": "every file name", "why_tests_cant": "all strings", "anchors": ["src/factory.cpp: InferFileTypeFromExtension"]}
{"id": "C47", "title": "A delivered point can be read safely", "statement": "Every attribute of a point delivered by a reader can be read without touching memory outside the point's record, whatever the file says.", "quantifier": "every byte stream a reader accepts", "why_tests_cant": "all header contents, including inconsistent record lengths", "anchors": ["src/detail/reader/header.cpp: ReadHeader", "src/point.cpp: getters"]}
{"id": "C48", "title": "Adding, replacing and removing a dimension does what it says", "statement": "Adding a dimension makes it available under its name behind the existing ones, replacing a dimension requires it to exist, and removing a dimension removes the dimension of that name and no other.", "quantifier": "every schema reachable by edits, every dimension object", "why_tests_cant": "all edit histories", "anchors": ["src/schema.cpp: AddDimension, SetDimension, RemoveDimension, operator=="]}
{"id": "C49", "title": "Opening a writer keeps the caller's variable records", "statement": "The variable length records of the header given to a writer are in the written file, all of them, unchanged and in the same order.", "quantifier": "every header, every list of variable length records", "why_tests_cant": "all record lists and owners", "anchors": ["src/detail/writer/header.cpp: write, WriteVLRs", "src/header.cpp: SetGeoreference, DeleteVLRs"]}
{"id": "C50", "title": "Box equality and measures", "statement": "Two boxes are equal exactly when they have the same dimensions and bounds; the volume is the product of the side lengths; shifting and scaling a box apply to each dimension.", "quantifier": "all boxes, all vectors", "why_tests_cant": "all doubles and dimension counts", "anchors": ["include/liblas/bounds.hpp: Bounds, Range"]}
{"id": "C51", "title": "A coordinate shift moves exactly that coordinate", "statement": "Applying a coordinate transformation moves the named coordinate by the given amount, rounded to the grid of the point's header, and leaves every other attribute alone; a result that does not fit is refused.", "quantifier": "all points, headers and shifts", "why_tests_cant": "all raw coordinates, scales and offsets", "anchors": ["src/transform.cpp: TranslationTransform::transform"]}
{"id": "C52", "title": "The header of a spatial index survives storage", "statement": "The header record of a spatial index stores its version, author, comment, date, bounds, point count and cell counts; reading the record back, in memory or from a file written with it, gives exactly the stored values, the texts being cut to 511 bytes, and the record's length field is that of its data.", "quantifier": "all index headers whose numbers fit their fields, with texts of any length", "why_tests_cant": "all texts and numbers", "anchors": ["src/detail/index/indexoutput.cpp: IndexOutput::InitiateOutput", "src/index.cpp: Index::LoadIndexVLR"]}
{"id": "C53", "title": "The error stack of the C interface", "statement": "The errors a C program sees are those reported and not yet popped or reset, the newest first; the count, code and texts shown are those of that list, and resetting empties it.", "quantifier": "every history of reports, pops and resets", "why_tests_cant": "all histories of any length", "anchors": ["src/c_api.cpp: LASError_PushError, LASError_Pop, LASError_Reset, LASError_GetLastErrorNum, LASError_GetErrorCount"]}
{"id": "C54", "title": "C calls report failure exactly when they fail", "statement": "A C call that does what its C++ counterpart does returns success and reports nothing; a call that fails returns a failure value, reports exactly one error under its own name and leaves the object unchanged. Reading through C delivers the points of the file, and a position beyond the end is refused.", "quantifier": "every point, header and reader state, every argument, every history of calls", "why_tests_cant": "all handle states and call histories", "anchors": ["src/c_api.cpp: LASPoint_Set*, LASHeader_Set*, LASReader_GetNextPoint, LASReader_GetPointAt, LASReader_Seek"]}
{"id": "C55", "title": "A NULL handle is refused", "statement": "Every C function given a NULL handle returns its failure value, changes nothing and reports one error under its own name.", "quantifier": "every C function, every other argument and error stack", "why_tests_cant": "all functions and arguments", "anchors": ["src/c_api.cpp: VALIDATE_LAS_POINTER0, VALIDATE_LAS_POINTER1"]}
{"id": "C56", "title": "Writing and reading through the C interface", "statement": "A C program that creates a writer, writes points, destroys it and creates a reader on the file gets back the points written, in order; in append mode it gets the old points and then the new ones. A file that cannot be opened is reported.", "quantifier": "every storable header, every list of points, every previous content of the file", "why_tests_cant": "all files and point lists", "anchors": ["src/c_api.cpp: LASWriter_Create, LASWriter_WritePoint, LASWriter_Destroy, LASReader_Create, LASReader_GetNextPoint"]}
{"id": "C57", "title": "Handles and streams are released exactly once", "statement": "Destroying a live reader or writer handle ends exactly that object and closes exactly its stream; destroying a handle that is not alive is reported and harmless; no stream stays open that belongs to no live handle.", "quantifier": "every history of creations (successful or not) and destructions", "why_tests_cant": "all histories and address choices of the allocator", "anchors": ["src/c_api.cpp: LASReader_Create, LASReader_Destroy, LASWriter_Create, LASWriter_Destroy"]}
{"id": "C58", "title": "Raw data set through C is the raw data returned", "statement": "The bytes passed to LASPoint_SetData or LASVLR_SetData are those LASPoint_GetData or LASVLR_GetData returns, and no memory outside the buffers and the object is touched.", "quantifier": "every point and variable record, every buffer", "why_tests_cant": "all record lengths and buffers", "anchors": ["src/c_api.cpp: LASPoint_SetData, LASPoint_GetData, LASVLR_SetData, LASVLR_GetData"]}
{"id": "C59", "title": "Point handles compare and hold points", "statement": "LASPoint_Equal says whether two points are equal; a copy is equal to its original; a handle returned by a reader keeps showing the point it was returned for.", "quantifier": "every point, every reader and read position", "why_tests_cant": "all points and histories", "anchors": ["src/c_api.cpp: LASPoint_Equal, LASPoint_Copy, LASReader_GetNextPoint"]}
{"id": "C60", "title": "Counts by return and validity through C", "statement": "A count by return set through C is the count returned for that index and no other count changes; an index that cannot be stored is refused. LASPoint_Validate names exactly the members out of range and LASPoint_IsValid agrees with it.", "quantifier": "every header, index, value and point", "why_tests_cant": "all indexes including negative ones", "anchors": ["src/c_api.cpp: LASHeader_SetPointRecordsByReturnCount, LASHeader_GetPointRecordsByReturnCount, LASPoint_Validate, LASPoint_IsValid"]}
{"id": "C61", "title": "las2las copies exactly the points that pass", "statement": "Without options that change points, las2las writes one file that opens, holds exactly the points of the input that pass the filters, transformed, in order and none else, and advertises their number; scale, offset, record length, format and version are those of the prepared header.", "quantifier": "every readable input file, every list of filters and transforms, every prepared output header", "why_tests_cant": "all files, filters and header options", "anchors": ["apps/las2las.cpp: main, process", "apps/laskernel.cpp: FetchHeader, RepairHeader, RewriteHeader"]}
{"id": "C62", "title": "The header las2las writes describes the points", "statement": "After las2las the bounds in the header of the output are those of its points, and the counts by return are the numbers of its points with return 1 to 5.", "quantifier": "every readable input file, every list of filters and transforms, every prepared output header", "why_tests_cant": "all coordinates, scales and offsets", "anchors": ["apps/las2las.cpp: process", "apps/laskernel.cpp: RepairHeader, RewriteHeader", "src/utility.cpp: CoordinateSummary", "include/liblas/external/property_tree/stream_translator.hpp"]}
{"id": "C63", "title": "Splitting by number of points", "statement": "las2las --split-pts k writes files with consecutive runs of k points (the last with the rest): together they hold every point once, in order, and each header describes its own points.", "quantifier": "every readable input file, every k", "why_tests_cant": "all numbers of points and all k", "anchors": ["apps/las2las.cpp: process"]}
{"id": "C64", "title": "Splitting by size", "statement": "las2las --split-mb m writes files of m megabytes or less that together hold every point once, in order.", "quantifier": "every readable input file, every record length and m", "why_tests_cant": "all sizes", "anchors": ["apps/las2las.cpp: process, main"]}
{"id": "C65", "title": "The filter options keep exactly the points they describe", "statement": "las2las with the filter options (--keep-classes, --drop-classes, --keep-returns, --drop-returns, --extent or --minx ... --maxz, --keep-/--drop-intensity, --keep-/--drop-scan-angle, --keep-/--drop-time, --keep-/--drop-color, --first-return-only, --last-return-only, --valid-only) writes exactly the points of the input that meet every option given, in order.", "quantifier": "every combination of options, every value, every readable input file", "why_tests_cant": "all combinations of options and all points", "anchors": ["apps/laskernel.cpp: GetFilteringOptions, GetFilters", "apps/las2las.cpp: main, process", "src/filter.cpp"]}
{"id": "C66", "title": "A writer can be made from the header of any file", "statement": "The header a reader returns for a file can be handed to a writer on a new file: the writer is made, the new file gets the variable records of the old one, and its points begin behind them.", "quantifier": "every file that opens, every header object with the invariants of the class", "why_tests_cant": "all headers, variable records and data offsets", "anchors": ["src/detail/writer/header.cpp: write, WriteVLRs", "src/header.cpp: GetVLRBlockSize, SetGeoreference", "src/detail/reader/header.cpp: ReadHeader, ReadVLRs"]}
{"id": "C67", "title": "The header options change what they name and nothing else", "statement": "las2las with --offset, --scale, --file-format, --point-format, --pad-header, --file-creation, --delete-vlr, --add-vlr, --software-id or --system-id writes a file whose header has the values asked for and otherwise those of the input, and whose points are those of the input.", "quantifier": "every combination of header options with legal values, every readable input file", "why_tests_cant": "all combinations of options, all headers, variable records and points", "anchors": ["apps/laskernel.cpp: GetTransforms", "apps/las2las.cpp: main, process", "src/header.cpp: DeleteVLRs, AddVLR, SetDataFormatId, SetSystemId, SetSoftwareId", "src/detail/writer/header.cpp: write"]}
{"id": "C68", "title": "A header takes a schema only with its coordinates", "statement": "Header::SetSchema with a schema that has X, Y and Z makes the header's schema show the same dimensions, in the same order, and changes nothing else; a schema without one of them is refused with an exception.", "quantifier": "every schema reachable by edits, every header", "why_tests_cant": "all edit histories", "anchors": ["src/header.cpp: SetSchema", "src/schema.cpp: AddDimension, GetDimension"]}
{"id": "C69", "title": "A minimal offset keeps the points where they are", "statement": "las2las with --min-offset makes the lowest coordinate of the points written the offset of the output, and every point written has the coordinates it had in the input, up to half a unit of the output's scale, and all its other attributes, whether or not the output is split.", "quantifier": "every readable input file, every choice of filters and transforms, every scale that can hold the points", "why_tests_cant": "all points and scales, histories with several passes over the input", "anchors": ["apps/las2las.cpp: process", "apps/laskernel.cpp: SummarizeReader", "src/point.cpp: SetHeader", "src/reader.cpp: Reset"]}
{"id": "C70", "title": "The options that change points change what they say", "statement": "las2las with --point-translate and --fix-optech-scan-angle writes one point for every point of the input, in order, with its coordinates shifted by the terms of the text one after the other, its scan angle multiplied by 1.944445, rounded and limited to a signed byte, and every other attribute as it was; the header describes the changed points.", "quantifier": "every readable input file, every text of terms, every angle", "why_tests_cant": "all points, all texts of any number of terms", "anchors": ["apps/laskernel.cpp: OptechScanAngleFixer::transform, GetTransforms", "src/transform.cpp: TranslationTransform", "apps/las2las.cpp: process", "src/detail/reader/reader.cpp: TransformPoint"]}
{"id": "C71", "title": "Tiling a file puts every point in exactly one tile", "statement": "lasblock --write-points distributes the points of the input over files: every point is in exactly one of them, byte for byte as in the input; no file is empty or holds more points than the capacity; each file has scale, offset, format, version, identifiers and variable records of the input, and its count, bounds and counts by return are those of its points.", "quantifier": "every complete input file, every capacity, every conforming std::sort", "why_tests_cant": "all point sets of any size, any order of coordinates", "anchors": ["apps/lasblock.cpp: write_tiles, main", "src/chipper.cpp: Chipper::Load, Chipper::Chip, Block::GetIDs", "src/detail/reader/reader.cpp: ReadPointAt", "apps/laskernel.cpp: RepairHeader, RewriteHeader"]}
{"id": "C72", "title": "The digest class computes SHA-1", "statement": "An object of the digest class that is given a message in pieces returns, when asked for the digest, the SHA-1 digest of the whole message as FIPS 180-4 defines it, however the message is cut into pieces.", "quantifier": "every message, every way to cut it into pieces, every history of calls, every initial content of the object's memory", "why_tests_cant": "all lengths relative to the 64-byte blocks and all cuts", "anchors": ["src/detail/sha1.cpp: SHA1::SHA1, SHA1::lrot, SHA1::process, SHA1::addBytes, SHA1::getDigest", "include/liblas/detail/sha1.hpp"]}
{"id": "C73", "title": "Points become rows of text", "statement": "las2txt writes, for every point that passes the filters and in their order, one line with the text of every letter of --parse between delimiters: the attribute that the letter stands for, integers in decimal notation, coordinates and times rounded to the requested decimals (or those of the header's scale), and before them the headings if asked for. Cut at line ends and delimiters the text is a table with a column per letter.", "quantifier": "every readable input file, every parse string, delimiter, precision and choice of filters", "why_tests_cant": "all points, all parse strings of any length, all doubles", "anchors": ["apps/las2txt.cpp: GetLabels, GetPointString, write_points, main", "src/utility.cpp: GetStreamPrecision", "src/classification.cpp: GetClassName"]}
{"id": "C74", "title": "Coordinates survive the way through text", "statement": "The coordinates that las2txt prints, read back as the nearest doubles and set on a point with the same header, give exactly the raw coordinates of the printed point, when the decimals are at least as fine as the scale.", "quantifier": "every readable file, every point, every scale and offset that is fine enough for the decimals", "why_tests_cant": "all 32-bit coordinates, all scales and offsets", "anchors": ["apps/las2txt.cpp: GetPointString", "src/point.cpp: GetX, SetX, GetY, SetY, GetZ, SetZ", "src/utility.cpp: GetStreamPrecision"]}
{"id": "C75", "title": "A compressed file reads as a list of records", "statement": "If the decompressor yields the records of the file, a reader of a compressed file is a cursor over them: sequential reads deliver each record once and in order, random access and Seek go to the record asked for and report the end or an error exactly outside the file, transforms apply to every delivered record, and filters select exactly the accepted records.", "quantifier": "every compressed file that opens, every decompressor that meets the contract, every sequence of reading calls", "why_tests_cant": "all interleavings of sequential and random access and all record counts; LASzip is not available to tests here", "anchors": ["src/detail/reader/zipreader.cpp: ReadNextPoint, ReadIdiom, ReadPointAt, Seek, Reset", "src/detail/zippoint.cpp: ZipPoint", "src/reader.cpp: ReadNextPoint, ReadPointAt, Seek"]}
{"id": "C76", "title": "Points written compressed are read back", "statement": "If the compressor keeps its contract, points written to a new compressed file and closed are read back exactly and in order, in any sequence of reading calls, and the header read has the number of points, format, scale, offset, bounds, counts by return and record length of the header given.", "quantifier": "every storable header, every list of points, every compressor that meets the contract, every sequence of reading calls", "why_tests_cant": "all headers, record lists and sessions; LASzip is not available to tests here", "anchors": ["src/detail/writer/zipwriter.cpp: WriteHeader, WritePoint, UpdatePointCount", "src/detail/writer/header.cpp: write", "src/detail/zippoint.cpp: ConstructVLR, IsZipVLR", "src/detail/reader/zipreader.cpp"]}
{"id": "C77", "title": "Text becomes points", "statement": "txt2las makes a file with exactly one point for every line of numbers, in order, skipping comment lines; each column is the attribute its letter stands for, attributes without a letter are zero, coordinates are the stored integers nearest to the decimals; the header read back has the format the letters need, the scale, offset, identifiers and date asked for, the number of points, the counts by return and the lowest and highest coordinates.", "quantifier": "every text of rows and comments, every choice of letters, every scale and offset, any initial memory, every build, every number scanner that reads plain decimals", "why_tests_cant": "texts, letter combinations and scales are unbounded", "anchors": ["apps/txt2las.c: parse, main, VecUpdateMinMax3dv", "src/c_api.cpp: LASPoint_Set*, LASHeader_Set*, LASWriter_WritePoint", "src/point.cpp: SetX, SetY, SetZ", "src/writer.cpp"]}
{"id": "C78", "title": "Points survive printing and reading", "statement": "Points printed by las2txt with letters both programs know (x, y and z among them) and read by txt2las with the same letters and the scale and offset of the original file become a file with the same points in the same order: stored coordinates and all printed integer attributes are equal, the classification keeps its class, the time is the double nearest to a decimal within half a unit of the last decimal, and attributes that were not printed are zero.", "quantifier": "every readable file with at least one and fewer than 2^32 delivered points, every filter, every choice of letters, every delimiter and heading option txt2las understands, every number of decimals fine enough for the scale, every build", "why_tests_cant": "files, letters, scales and offsets are unbounded, and two programs and two floating-point conversions must agree", "anchors": ["apps/las2txt.cpp: main, GetPointString, GetLabels", "apps/txt2las.c: parse, main", "src/point.cpp: GetX, SetX", "src/writer.cpp", "src/reader.cpp"]}
{"id": "C79", "title": "TerraScan shots become points", "statement": "Of a TerraScan .bin file of a known version ts2las makes a LAS file with exactly one point for every shot, in order: stored coordinates, intensity and class are those of the shot, returns follow the echo, the time is the count of 1/5000 seconds to 15 digits, colour is that of the shot; the header read back has the format the survey's flags need, the number of shots, and a scale and offset that place every point within 1/16 unit of shot minus origin. A file with another magic or version is refused.", "quantifier": "every survey header of a known version, every list of fewer than 2^31 shots, both record layouts, any bytes behind the shots, every build", "why_tests_cant": "headers and shot lists are unbounded; scales and origins range over all doubles; the end of the file can fall anywhere", "anchors": ["apps/ts2las.cpp: ReadHeader, CreateHeader, WritePoints, main", "apps/ts2las.hpp: ScanHdr, ScanPnt, ScanRow, read_n", "src/point.cpp", "src/writer.cpp"]}
{"id": "C80", "title": "las2col's threads lose nothing", "statement": "Whatever the schedule of its reading, copying and writing threads, las2col never uses a dangling or NULL pointer, gives up only if an input file cannot be read, and at any moment every column file is a concatenation of whole columns of distinct input files; when it returns, every column file holds the columns of all input files, each once and whole, in one order that is the same for all columns and, with one reading thread, the order on the command line. It always returns.", "quantifier": "every number of input files, reading threads and columns, every content of the files, every interleaving of the threads' steps (spurious wake-ups included)", "why_tests_cant": "the interleavings are unbounded and the bad ones (a broadcast between a test and a wait) are rare", "anchors": ["apps/las2col.c: readFile, writeFile, main"]}
{"id": "C81", "title": "Morton codes are faithful and order-preserving", "statement": "The key las2pg and las2col write for a point is the Morton code (interleaved binary digits) of its place on the grid of multiples of the scale, counted from the global offset; different places within 2^31 units have different keys, and keys grow with the coordinates, so the keys of the points in a rectangle lie between those of its corners.", "quantifier": "every pair of raw coordinates, every file offset that is a multiple of the scale, every global offset", "why_tests_cant": "all 2^64 pairs of raw coordinates and all scales and offsets", "anchors": ["apps/las2pg.c: Expand1, EncodeMorton2D", "apps/las2col.c: Expand1, morton2D_encodeOscar"]}
{"id": "C82", "title": "las2pg writes a dump PostgreSQL can read", "statement": "The output of las2pg is a binary COPY file: signature, one tuple per point to be written (all, or those with a valid scan angle), in order, with one field per letter of --parse that denotes the attribute the letter stands for (doubles and keys of eight bytes, integers of four), and the trailer; --check ends the program with an error or changes nothing.", "quantifier": "every file that opens, every non-empty string of known letters, every global offset", "why_tests_cant": "files, letters and record counts are unbounded; the format must parse back for all of them", "anchors": ["apps/las2pg.c: main, Expand1, EncodeMorton2D, bigEndian_double", "src/c_api.cpp: LASReader_GetNextPoint, LASPoint_Get*, LASPoint_IsValid"]}
{"id": "C83", "title": "las2col's columns hold every point", "statement": "When las2col returns, the column file of every letter of --parse consists, for each input file in one order common to all columns (with one reading thread that of the command line), of exactly one element of the letter's width for every point of the file, in order, denoting the attribute the letter stands for.", "quantifier": "every list of files that open and are complete, every choice of one to 21 known letters, every number of reading threads and every schedule, any content of fresh memory", "why_tests_cant": "files, letters and interleavings are unbounded", "anchors": ["apps/las2col.c: readFile, writeFile, main, morton2D_encodeOscar", "src/c_api.cpp: LASReader_GetNextPoint, LASPoint_Get*"]}
{"id": "C84", "title": "A new index has a grid that fits the file", "statement": "For a file whose header gives finite bounds with an area, the index the library builds covers exactly these bounds with at least one and at most 250000 columns of cells; on the longer side there are as many as the root of a hundredth of the number of points, but at least ten, and the cells are as square as whole numbers allow (up to 25 million points); the number of cells on top of each other is the extent divided by the requested height, rounded up, or one. A file without area gets no index. No settings lead to undefined behaviour.", "quantifier": "every header with finite bounds, every number of points, every requested cell height", "why_tests_cant": "bounds, heights and counts range over all doubles and 32-bit numbers; the rounding of the quotients decides", "anchors": ["src/index.cpp: Index::BuildIndex (1030-1121), Index::Prep"]}
{"id": "C85", "title": "An index made by the library is usable, at once and from the file", "statement": "For a complete file without an index whose points lie within the bounds in its header, Prep by a caller who may write makes an index and saves it: the file written opens and has the points, bounds, header values and records of the caller of the input (no points if the index gets a file of its own) with the records of the index among them; a later Prep on that file, or on the input with that file as the index file, takes the index from there and writes nothing; and the index answers windows with every point inside, none outside and none twice.", "quantifier": "every such file, every choice of settings, every later session, every window", "why_tests_cant": "the property composes reader, grid, cells, chunks, writer, reader again and query; all files and windows are unbounded", "anchors": ["src/index.cpp: Index::Prep, IndexInit, BuildIndex, SaveIndexInLASFile, SaveIndexInStandAloneFile, Validate, Filter", "src/detail/index/indexoutput.cpp"]}
{"id": "C86", "title": "An index is used exactly if it is up to date, and replaced otherwise", "statement": "Prep on a file with an index uses it exactly if it has the file's number of points and bounds; otherwise, if the caller may write, the index is replaced by a new one with the author, comment and date he gives, as it is when the caller asks for a new one, so that the next user of the file has an up-to-date index and windows are answered right. A caller who may not write never gets a file written.", "quantifier": "every file with an index header, every settings, index in the file or in a file of its own", "why_tests_cant": "all headers, bounds (doubles), records before and after the index; what the next session finds depends on the whole file written", "anchors": ["src/index.cpp: Index::IndexInit, ClearOldIndex, Validate, SaveIndexInLASFile, Filter", "include/liblas/bounds.hpp: operator==", "src/header.cpp: DeleteVLR, AddVLR"]}
{"id": "C87", "title": "The XML text of a property tree is read back unchanged", "statement": "What the bundled XML writer makes of a property tree (element names of name characters, texts without zero bytes) the bundled XML parser turns back into exactly that tree: same nesting, names, order and texts, whatever markup characters, blanks or bytes above 127 the texts hold.", "quantifier": "every tree of every depth and width, every text", "why_tests_cant": "trees and texts are unbounded; escaping, blanks and nesting interact", "anchors": ["include/liblas/external/property_tree/detail/xml_parser_write.hpp: write_xml_element", "include/liblas/external/property_tree/detail/xml_parser_utils.hpp: encode_char_entities", "include/liblas/external/property_tree/detail/rapidxml.hpp: xml_document::parse", "include/liblas/external/property_tree/detail/xml_parser_read_rapidxml.hpp"]}
{"id": "C88", "title": "No schema record can crash the reader", "statement": "Whatever bytes the schema record of a file holds, opening the file either adopts the recorded schema or falls back to the schema of the point format; there is no undefined behaviour, no endless loop and no exception to the caller because of the record. (Refuted for records that list X without Y or Z.)", "quantifier": "all byte strings as data of the schema record, all headers of point formats 0 to 3", "why_tests_cant": "the parser must be safe on every byte string a file can contain", "anchors": ["src/schema.cpp: Schema::LoadPTree, LoadDimensions, Schema(std::vector<VariableRecord> const&)", "src/header.cpp: Header::SetSchema", "src/detail/reader/header.cpp: ReadVLRs", "include/liblas/external/property_tree/detail/rapidxml.hpp"]}
{"id": "C89", "title": "A custom schema written to a file is there when the file is read", "statement": "If a file is written from a header whose schema has custom dimensions, a reader opened on the file has these dimensions with their names and sizes. (Refuted for every custom schema: the library cannot read its own schema records. The points themselves are still read back unchanged and the bytes of the custom dimensions appear under the name \"extra\".)", "quantifier": "every custom schema, every header, every list of points", "why_tests_cant": "the failure is the same for every schema, so a test that passes on points never notices; the claim ranges over all schemas and point lists", "anchors": ["src/schema.cpp: Schema::GetPTree, LoadDimensions, GetVLR", "src/dimension.cpp: Dimension::GetPTree", "src/detail/writer/header.cpp", "src/detail/reader/header.cpp: ReadVLRs, ReadHeader"]}
{"id": "C90", "title": "A schema record of another program is understood completely", "statement": "A schema record in the library's XML format with a whole-number version yields a schema in which every recorded dimension is found with its position, size, flags and the offset that follows from the order, and with the recorded point format; and a file with such a record is read with the record length stored in its header. (The last part is refuted when a recorded dimension has the position the library gives to its filler dimension.)", "quantifier": "every list of dimensions with distinct names and positions, every point format 0 to 3, every 16-bit version", "why_tests_cant": "all lists of dimensions, sizes, positions and texts", "anchors": ["src/schema.cpp: Schema::LoadDimensions, CalculateSizes, AddDimension", "src/header.cpp: Header::SetSchema", "src/detail/reader/header.cpp: ReadHeader"]}
{"id": "C91", "title": "A disk that fills up while points are written is reported", "statement": "If the space for a file runs out while points are written, the program is told by an exception, and the file left behind can be opened, shows the point count it had when the writer was opened and holds every point that fitted. (Refuted for the report: a failure at the last point is never reported, so that a program that sees no error can be left with a file without points.)", "quantifier": "every header, list of points and disk size, new files and append sessions", "why_tests_cant": "depends on where the disk fills up", "anchors": ["src/detail/writer/point.cpp: Point::write", "src/detail/writer/writer.cpp: WriterImpl::UpdatePointCount, ~WriterImpl", "include/liblas/detail/private_utility.hpp: write_n"]}
{"id": "C92", "title": "Blocks can be computed with the memory in a map file", "statement": "With the option to keep its arrays in a mapped file, a chipper gets memory for all its points, the arrays of all live chippers never share a byte, what a chipper holds stays as it is while it lives, and a process can do this any number of times, as with arrays on the heap. (Refuted but for the first two parts: a process can do it once; later chippers, mapped or not, fail, and a failed attempt with the same file destroys the arrays of the chipper still in use.)", "quantifier": "every sequence of making, running, using and destroying chippers in a process", "why_tests_cant": "the state is global to the process; any order of chippers matters", "anchors": ["include/liblas/detail/opt_allocator.hpp: opt_allocator", "src/chipper.cpp: Chipper::Allocate", "include/liblas/chipper.hpp: RefList, Options"]}
{"id": "C93", "title": "A coordinate system given to a header is there when the file is read", "statement": "The records of the coordinate system given to a header are, alone and in order, the coordinate system of the file written with it; a text set as coordinate system is the text read back; and a setter either sets the coordinate system or reports that it cannot. (The last two parts are refuted for builds without GDAL.)", "quantifier": "every header, every history of a spatial reference object, every text and list of points (build without GDAL and libgeotiff)", "why_tests_cant": "all records and texts, through a file", "anchors": ["src/spatialreference.cpp: SetVLRs, AddVLR, ClearVLRs, ResetVLRs, SetWKT, SetProj4, SetVerticalCS, SetFromUserInput, operator==", "src/header.cpp: SetGeoreference, SetSRS, GetSRS", "src/detail/reader/header.cpp: ReadVLRs"]}
{"id": "C94", "title": "The XML summary of a file reports its points", "statement": "For a file of at least one point and a reader without filters, the XML summary is a text that an XML parser reads as a report of exactly the points of the file (as the transforms in force leave them): their number, the smallest and largest value of every attribute, the numbers of withheld, key and synthetic points, and lists of the classes, return numbers and numbers of returns that occur, each with its count; afterwards the reader is as if just opened. For an empty file or a NULL handle nothing is returned and an error is recorded. (Refuted for points whose return number is 0.)", "quantifier": "every file, every history of the reader, every point record, every transform", "why_tests_cant": "all point records and histories, and the text as another program reads it", "anchors": ["src/c_api.cpp: LASReader_GetSummaryXML", "src/utility.cpp: Summary::GetPTree", "src/point.cpp: Point::GetPTree", "include/liblas/external/property_tree: put, add_child, write_xml"]}
{"id": "C95", "title": "XML documents of other programs are understood", "statement": "Reading XML text (the parser behind the schema record) gives, for every well-formed document, the tree the document says: elements with their attributes, text with all character references replaced (named, decimal, hexadecimal; characters as UTF-8), CDATA, comments, and children in order; a byte order mark, declaration, processing instructions, document type (with nested brackets) and blanks inside tags change nothing. Exceptions the code has: closing tags are accepted whatever they name, and a comment directly inside <dimensions> makes a schema record unreadable.", "quantifier": "every well-formed document (any nesting, any number of attributes and references, any Unicode character)", "why_tests_cant": "documents of unbounded size and nesting with arbitrarily many forms of the same text", "anchors": ["include/liblas/external/property_tree/detail/rapidxml.hpp: xml_document::parse, parse_node, parse_node_contents, parse_node_attributes, parse_doctype, skip_and_expand_character_refs, insert_coded_character", "include/liblas/external/property_tree/detail/xml_parser_read_rapidxml.hpp: read_xml_internal", "src/schema.cpp: Schema::LoadDimensions"]}
{"id": "C96", "title": "Point statistics as objects: copies, assignments and lifetimes", "statement": "A Summary that is not itself assigned to, given a new header or destroyed reports what its points say, whatever is done with other summaries and with its copies; a copy just made reports what the original does; SummarizeReader always reports its reader's points. Users would expect a copy to stand on its own and lasinfo to report every file; both are false of the code: the extremes of a copy are read through the header inside the original (or inside the reader of the first point), so the copy changes when the original gets another header and is undefined once the original (or the reader) is gone; lasinfo assigns the summary from a temporary, so for every file its report reads a destroyed header. A summary without header and points can be neither copied nor assigned nor reported.", "quantifier": "every history of making, copying, assigning, giving headers and points to, and destroying any number of summaries, and of opening and closing readers", "why_tests_cant": "histories of any length over any number of objects; a dangling reference usually still shows the old values in a test", "anchors": ["src/utility.cpp: Summary::Summary(Summary const&), Summary::operator=, Summary::AddPoint, Summary::SetHeader, Summary::GetPTree", "src/point.cpp: Point::Point(Point const&)", "apps/lasinfo.cpp: check_points, main", "apps/laskernel.cpp: SummarizeReader"]}
{"id": "C97", "title": "The header, filters and transforms of an open writer can be changed", "statement": "While a file is being written its header can be written again, any number of times: with a header that keeps the arrangement of the file and says how many points have been written so far, a reader delivers all points of all rounds, says how many there are and shows the last header; a header that is set but never written, of the same record length or after the first point, changes nothing in the file. Users would also expect filters and transforms given to a writer to act, a rewritten header to keep the points already written, and a header that was set to agree with the file; all three are false of the code: filters and transforms are never applied; the count of a rewritten header replaces the number of points written, so that with the writer's own header (count 0) all points written before are given up and overwritten; and a header of another record length set before the first point decides the length of the records while the file says otherwise.", "quantifier": "every sequence of setting headers, filters and transforms, writing the header and writing points; every header and point record", "why_tests_cant": "sequences of calls of any length and order", "anchors": ["src/writer.cpp: Writer::SetHeader, WriteHeader, WritePoint, SetFilters, SetTransforms", "src/detail/writer/writer.cpp: WriterImpl::WriteHeader, WritePoint, SetHeader, UpdatePointCount", "src/detail/writer/header.cpp: Header::write", "src/detail/writer/point.cpp: Point::write", "src/c_api.cpp: LASWriter_WriteHeader, LASWriter_WriteOwnedHeader, LASWriter_SetHeader"]}
{"id": "C98", "title": "An open reader can be given another header", "statement": "A header given to an open reader (SetHeader, LASReader_SetHeader, LASReader_SetInputSRS, LASReader_CreateWithHeader) is the one the reader shows; if it says the same about where the points are, whatever its scale, version, records or reference, the same records are read; Reset brings the header and the points of the file back; its point count only bounds access by number. Users would expect this at any time and for any header; it is false of the code: once a header was given and a point read, another header or a reset reads a destroyed header (so does setting the input reference twice with a point read between); a header with shorter records makes the next read undefined; with longer records access by number reads the wrong bytes.", "quantifier": "every file, every history of reads, seeks, filters, transforms, resets and headers given; every header", "why_tests_cant": "histories of any length; the destroyed header usually still shows the old values in a test", "anchors": ["src/reader.cpp: Reader::SetHeader, Reset, ReadPointAt, Seek", "src/detail/reader/reader.cpp: ReaderImpl::SetHeader, Reset, ReadNextPoint, ReadPointAt", "src/point.cpp: Point::SetHeader", "src/c_api.cpp: LASReader_CreateWithHeader, LASReader_SetHeader, LASReader_SetInputSRS"]}
{"id": "C99", "title": "Transforms that give points another header", "statement": "Reading with transforms that move points to another header (reprojection, fetching colours) gives for every sequence of reads, seeks and access by number what reading without them gives, each point transformed as a point of the file's header: neither the header nor the bytes a transform left on an earlier point, nor its failure, has an effect on later points. (Refuted where an earlier point cannot be expressed with the file's header again: the next read is undefined although that point is not needed. Transforms must say that they modify the header; if not, later points are read with the wrong header, or undefined if its records are shorter. With filters the last, rejected point is transformed, too, and a failure there is that of the call. The test of the reprojection for coordinates that did not fit is undefined for all coordinates but two.)", "quantifier": "every file, filters, transforms and sequence of calls; every raw coordinate", "why_tests_cant": "all sequences of calls, with every point in the hand at each of them", "anchors": ["src/detail/reader/reader.cpp: ReaderImpl::SetTransforms, TransformPoint, ReadNextPoint, ReadPointAt", "src/transform.cpp: ReprojectionTransform::transform, ColorFetchingTransform::transform", "include/liblas/transform.hpp: TransformI::ModifiesHeader", "include/liblas/detail/private_utility.hpp: compare_distance", "src/point.cpp: Point::SetHeader"]}
{"id": "C100", "title": "A point has its header for itself", "statement": "Through the C interface a point is as independent of the header it was given, and of the reader it came from, as if it had the header inside it: changing or destroying the header handle, reading on, or destroying the reader changes nothing about the points and copies of points the program holds. (Refuted: changes of the header show in every point that was given it and in their copies; after the header or the reader is destroyed, those points can neither be read in scaled coordinates nor given another header. Proved for programs that wait with this until the points are gone, and exactly which points are affected otherwise.)", "quantifier": "every program of calls that make, change, copy and destroy headers, points and readers, every header and record", "why_tests_cant": "all interleavings of lifetimes; what is reached through a dangling pointer is not observable by a test", "anchors": ["src/c_api.cpp: LASPoint_Create, LASPoint_Copy, LASPoint_SetHeader, LASPoint_SetData, LASPoint_Destroy, LASHeader_Destroy, LASReader_GetNextPoint, LASReader_Destroy", "src/point.cpp: Point::Point, Point::SetHeader, Point::GetHeader", "include/liblas/point.hpp: m_header"]}
{"id": "C101", "title": "Project identifiers as text", "statement": "A project identifier given as text is taken exactly if it is 32 hexadecimal digits, in groups 8-4-4-4-12 or not, in braces or not; the header then has the identifier the digits spell and nothing else of it changes; any other text returns LE_Failure, leaves the header alone and adds one error. The text returned for an identifier is read back as the same identifier, different identifiers have different texts, LASGuid_Equals says which are equal, and the text is the same after the header went through a file. (Refuted: through a file three groups are reversed; NULL compares equal to everything and as an argument is undefined behaviour; new identifiers are not random; with older Boost anything may follow the text.)", "quantifier": "every text, every identifier, every header, both behaviours of Boost at the end of the text", "why_tests_cant": "2^128 identifiers and all texts; what uninitialised memory holds is not repeatable", "anchors": ["src/c_api.cpp: LASHeader_SetProjectId, LASHeader_GetProjectId, LASHeader_SetGUID, LASHeader_GetGUID, LASGuid_Create, LASGuid_CreateFromString, LASGuid_Equals, LASGuid_AsString", "src/detail/reader/header.cpp: ReadHeader", "src/detail/writer/header.cpp: write"]}
{"id": "C102", "title": "The XML text of a header or a point says what it is", "statement": "LASHeader_GetXML returns an XML document that says everything about the header: signature, project identifier, system and software texts, version, date, sizes, counts, format, scales, offsets, bounds, the counts by return, every variable record in order and the document of its schema, whatever characters the texts hold; headers with the same document agree in all of it. LASPoint_GetXML does the same for a point; lasinfo --xml prints these, and for --point n exactly record n, or fails with status 1 when there is none. (Refuted: the texts of the two C functions have several outermost elements; a wrong record count and a handle without a header are undefined behaviour.)", "quantifier": "every header whose texts are C strings, every point whose fields can be read, every file and point number", "why_tests_cant": "all texts with characters that XML must escape, all numbers and lists of records", "anchors": ["src/header.cpp: Header::GetPTree", "src/variablerecord.cpp: VariableRecord::GetPTree", "src/spatialreference.cpp: SpatialReference::GetPTree", "src/point.cpp: Point::GetPTree", "src/c_api.cpp: LASHeader_GetXML, LASPoint_GetXML", "apps/lasinfo.cpp: main"]}
{"id": "C103", "title": "Handles of records, colours, coordinate systems, schemas and headers", "statement": "A C program may hold any number of handles of variable records, colours, coordinate systems, schemas and headers. What it reads through a handle is the last value accepted through that handle, whatever it did through others; records, references and schemas given to a header or taken from it are copies; a refused call returns LE_Failure or NULL, reports one error under its name and changes nothing. A colour given to a point is got back, or dropped and black for formats without colours. (Refuted: a refused text or schema stays; LASSRS_SetProj4 says it succeeded and discards the records; a record number out of range, a NULL text and a NULL header handle are undefined behaviour; LASSchema_Create throws through C.)", "quantifier": "every program of calls on any number of handles, every value and text, every state of the error stack", "why_tests_cant": "all interleavings of calls on all handles", "anchors": ["src/c_api.cpp: LASVLR_Create, LASVLR_SetUserId, LASVLR_SetData, LASColor_SetRed, LASPoint_GetColor, LASPoint_SetColor, LASSRS_AddVLR, LASSRS_GetVLR, LASSRS_SetWKT, LASSRS_SetProj4, LASHeader_AddVLR, LASHeader_GetVLR, LASHeader_SetSRS, LASHeader_SetSchema, LASHeader_SetCompressed, LASSchema_Create", "src/variablerecord.cpp: VariableRecord", "src/spatialreference.cpp: SpatialReference"]}
{"id": "C104", "title": "Statistics and repair of a header by the C tools", "statement": "SummarizePoints of the C tools counts all points a reader gives (in all, by return, by number of returns, by class, by flag; a point without a return number counts as a first return) and keeps two points at the corners of the box around them, which also show the smallest and the largest value of every other attribute; repair_header then gives a header this box and these counts by return and changes nothing else. (Refuted for the counts: a header that agrees with them modulo 256 is left wrong; an error left on the stack by an earlier call ends the program after the first point; a file that ends inside a record is not noticed and that record is counted; a scale of zero is undefined.)", "quantifier": "every reader, every sequence of records with a well-conditioned scale and offset, every header", "why_tests_cant": "all sequences of points and all headers, including counts beyond 255", "anchors": ["apps/lascommon.c: SummarizePoints, repair_header", "apps/lascommon.h: LASPointSummary", "src/c_api.cpp: LASPoint_SetX, LASReader_GetNextPoint, LASHeader_GetPointRecordsByReturnCount, LASHeader_SetPointRecordsByReturnCount", "include/liblas/capi/las_config.h: MIN, MAX"]}
{"id": "C105", "title": "The progress meter of the tools", "statement": "With -v the tools show a meter: after k of n points, the text \"0...10...20 ... 100 - done.\" up to the mark of the part done (40 * k / n marks, rounded down), each character once; the whole text after the last point and not before; a program that works on several files shows one whole meter for each. (Refuted: a second file of one point gets none; after a file that ended early or whose points were filtered, the next file only gets the rest of the first one's meter; a header that counts no points, with a point, is undefined.)", "quantifier": "every number of points, every moment, every sequence of files in one program", "why_tests_cant": "all numbers of points up to 2^32, all sequences of files", "anchors": ["apps/laskernel.cpp: term_progress", "apps/las2ogr.cpp: term_progress", "apps/ts2las.cpp: main loop", "apps/lasinfo.cpp: check_points", "apps/las2las.cpp: process", "apps/las2txt.cpp: write_points", "apps/lasblock.cpp: write_index"]}
{"id": "C106", "title": "Copies of readers and writers", "statement": "A Reader or Writer that is copied or assigned stands for the same open file as the original. However objects are copied, assigned, destroyed and called, each file is in the state that a single object would be in that was given the calls of all of them in order, every call answers what it would answer there, and nothing fails that would not fail there; a file being written is finished when the last object that stands for it is gone, and not before, and all points written through any of them are read back in order. Using a destroyed object is undefined. (So a copy of a reader has no place in the file of its own: points it reads are missing for the original.)", "quantifier": "every program over any number of objects and files", "why_tests_cant": "all histories of copying, assigning, destroying and calling", "anchors": ["src/reader.cpp: Reader::Reader, Reader::operator=, Reader::ReadNextPoint", "src/writer.cpp: Writer::Writer, Writer::operator=, Writer::WritePoint", "src/detail/writer/writer.cpp: WriterImpl::~WriterImpl", "include/liblas/detail/fwd.hpp: ReaderIPtr, WriterIPtr"]}
{"id": "C107", "title": "An index object can be prepared again", "statement": "Prep on an Index that has been prepared before does what it does on a new one: it returns the same, IndexReady and GetIndexHeader are the same afterwards (IndexReady says what Prep returned), the files written are the same, and destroying the object releases every reader it has made.", "quantifier": "every history of Prep calls on one object, every settings, readers given or streams to open, files with and without an index, streams that cannot be opened", "why_tests_cant": "all histories of calls and files; what is left over from an earlier file shows only in combination", "anchors": ["src/index.cpp: Index::Prep, Index::IndexInit, Index::SetValues, Index::~Index, Index::Filter", "src/detail/index/indexoutput.cpp: IndexOutput::InitiateOutput", "include/liblas/index.hpp: IndexReady, IndexFailed"]}
