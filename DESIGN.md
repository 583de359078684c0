# Formal model of tgeijten/flut

This directory holds a Lean 4 model of the flut C++ library (source in `/repo`, read as text, never
built) and machine-checked proofs of the properties listed in `properties.jsonl`.
`MANIFEST.json` maps each property to the theorems that establish it.

## Trusted base

* Lean 4.33.0's kernel, and the three standard axioms `propext`, `Classical.choice`, `Quot.sound`.
  No other axiom is used. There is no `sorry`, `admit`, `native_decide`, `bv_decide`, `unsafe`
  or `implemented_by`. `#print axioms` on the property theorems shows at most these three.
* Mathlib definitions that occur in theorem statements (lists, permutations, real numbers,
  sine/cosine, square root, sums).
* The transcription of the C++ into Lean. Each definition cites the file and lines it models and
  names every simplification. Nothing checks the transcription mechanically.

## Conventions of the model

* **Outcomes.** A call yields `Res α`: `ok a`, `throws e`, `ub` (undefined behaviour) or `diverges`.
  C++ code that indexes out of range, dereferences an end iterator, shifts too far, or takes a modulo by
  zero yields `ub` and never a default value.
* **Characters** are bytes (`UInt8`); `char` is signed and 8 bits, as on x86 with MSVC, GCC and Clang.
  So a comparison such as `c < 33` is true for bytes >= 128 and the model says so.
* **Sizes** are natural numbers. `npos`/`no_index` is `none`. Where the code relies on unsigned
  wrap-around (`npos + 1`, `0 - 1`) the model states the wrapped result. No container reaches `2^64-1` elements.
* **Assertions and exceptions** are on (`FLUT_USE_ASSERT=1`, exceptions enabled), the default configuration; C168 is about builds without
  assertions, C169 about builds without exceptions.
* **Floating point** in `math/` and the data containers is replaced by exact arithmetic (`ℝ` or any ordered field).
  Rounding, NaN and infinities are not modelled there: those theorems are about the formulas, not about IEEE doubles.
  For the functions on scalars and the lengths of vectors there are also theorems in IEEE arithmetic (C98 to C102, C104 and up: `Model/Float.lean`,
  `Model/FloatMath.lean`, `Model/FloatData.lean`, `Model/FloatVec.lean`): `float` and `double` with signed zeros, infinities and one NaN, every operation evaluated in the format of
  its operands and rounded to nearest, ties to even; `fmod` is exact and `sqrt` correctly rounded.
  `sin`, `cos` and `acos` are parameters (C155, C156): the theorems hold for every library whose results are within a given number of units of
  rounding.
  The conversion of reals to and from text (`Model/Real.lean`) uses the same formats: floats and doubles are exact binary formats
  with infinities and NaN, and `strtod`/`printf("%f")` round correctly (to nearest, ties to even), as glibc does.
  `ERANGE` for small numbers is reported for inexact results below the least normal number.
* **Random numbers** are those of libstdc++: `std::default_random_engine` is `minstd_rand0`, and `generate_canonical`,
  `uniform_real_distribution` and `normal_distribution` are transcribed from the headers of libstdc++ 13.
* **Allocation failure** is not modelled, the stack is limited in `Model/CallDepth.lean` (C151) only, and several threads are
  modelled for C127 to C130 only.
* **`<cctype>`** functions are those of the "C" locale; a negative argument is `ub`.
* **Access flags** of `prop_node` are `mutable` and set by `const` functions. The model returns the changed node; functions
  documented as only observing are given twice, once for the value and once for the node afterwards. Statements about trees that
  change are about contents, not flags, except C134, which models the capacity of the vector of children as libstdc++ has it
  (doubling; elements are copied, since the move constructor may throw).
* **The file system** is a finite map from paths to files and folders, with permissions where the claim needs them. No other
  process changes it during a call, except where the statement quantifies over that.
* **The clock** is an input: each reading is an argument.
* **Third-party code** that flut calls is modelled like flut itself (rapidxml 1.13).
* **std containers and algorithms** behave as the standard prescribes; they are modelled by list functions.

## Layout

* `lean/Verif/Basic.lean` – outcomes, bytes, `std::string` operations.
* `lean/Verif/Model/*.lean` – the model of the code, function by function.
* `lean/Verif/Spec/*.lean` – small independent specifications used in theorem statements.
* `lean/Verif/Proofs/*.lean` – lemmas.
* `lean/Verif/Props/*.lean` – the property theorems (`Cnn_...`) and, beside them, examples showing
  that their hypotheses are met by concrete non-trivial cases.

## Plan, property by property

| id | model | proof |
|----|-------|-------|
| C01 | `encode_char`, `decode_char`, `try_(un)quoted` on byte lists, `ub` past the end | induction on the string; converse by first bad byte |
| C02 | `char_stream::get_token` on the unread suffix | induction on the string, arbitrary continuation |
| C03–C05 | `find_first_of` family, `substr` | list lemmas; spec by `dropWhile`/`splitOnP` |
| C06, C07 | `find`, `substr`, `int` arithmetic | prefix/suffix lemmas; refutation of the suffix half by witness, exact characterisation |
| C08–C12 | path and identifier helpers over `find_last_of` | decomposition lemmas on the last separator |
| C13, C14 | every stream operation as a state transformer with `ub`/`diverges` | invariant over operation sequences; small-step divergence argument |
| C15 | `strtol`, `operator>>`, `str_to_vec`, `scan_str` | digit induction, list induction |
| C16–C19 | `get_prop_token`, `read_prop_node`, `parse_prop`, `write_prop_none` | measure on unread bytes; mutual induction over trees |
| C20–C25, C27, C28 | `prop_node` as an inductive tree with access flags | structural induction |
| C26 | `resolve_include_files` over a file system function | induction on 100-level and on trees |
| C29 | `save_ini`, `load_ini` | induction over lines |
| C30, C31, C39, C40 | association lists | refinement to a function, induction over histories |
| C32 | `std::upper_bound` insert | sortedness, permutation, stability |
| C33, C34 | vector plus front/size counters | refinement to lists / last-N window |
| C35–C38 | label index map, row-major vector | refinement to a matrix function, induction over histories |
| C41 | 32-bit word | bit lemmas |
| C42 | sort contract | order statistics |
| C43 | sink list plus cached level | invariant over histories |
| C44, C45 | section table, clock readings | induction on nested histories, telescoping sums |
| C46 | 64-bit fold | induction on the string |
| C47, C49 | digits, `istream >> int`, `stol` | digit induction |
| C48 | counters | induction over histories |
| C50–C52 | file system as a finite map | case analysis on attempts |
| C53 | bit vectors of any width | arithmetic |
| C54–C57, C76 | ordered fields / `ℝ` | algebra, case analysis |
| C58–C62, C73 | vectors and quaternions over `ℝ` | `ring` identities modulo unit-norm / orthonormality |
| C63–C66, C74 | folds | induction, lattice and sum algebra |
| C67, C71, C72 | sampled functions | algebra over sorted lists |
| C68 | direct form filter state | induction over the input history |
| C69, C70, C75 | iterators, sentinel, any-of | induction |
| C77 | Euler angles over `ℝ` | trigonometric identities; refutation by witness |
| C78–C80 | `save_xml`, `load_xml`, rapidxml's parser and printer on bytes | grammar of documents, mutual induction over trees; measure on unread bytes |
| C81 | ordered fields | algebra |
| C82 | binary floating-point formats, `strtod`, `%f` | rounding lemmas over `ℚ`, induction over digits |
| C83 | `ℝ` | algebra, square roots |
| C84, C85, C86 | text of storage and table, named writes, interpolation | line and field splitting; refinement of C36/C37 |
| C87 | sampling of a function | algebra |
| C88 | the profiler's report | invariant of C44 plus induction over the depth of the call tree |
| C89, C90 | listing of a tree, list of unaccessed nodes | mutual induction over trees; reader for listings |
| C91 | integers from a `char_stream`, every width | scanner lemma shared with C15; modular arithmetic |
| C92 | `bounds` from nodes and text | scanner lemma for numbers followed by two points; C28, C91 |
| C93 | dynarray with a heap of blocks and a pointer per array; every operation | refinement of plain lists by an ownership invariant, by induction on the history; negations with witnesses for moved-from arrays and self-assignment |
| C94 | clone over the same heap | induction on the vector with freshness of allocations |
| C95 | Catmull-Rom coefficients and evaluation, length of a curve, over any normed space | comparison of coefficients with the cubic Hermite curve; triangle inequality over a refined polygon |
| C96 | timer over readings of the clock in 64-bit integers | integer division; overflow witness for the counter |
| C97 | output streams with a buffer emptied at arbitrary moments and files with limited room; the logger of C43 | invariant relating file, buffer and text, by induction on the history and on the characters of a message |
| C98 | IEEE arithmetic over exact rationals with rounding, infinities, NaN | order lemmas by cases; a difference of two floats is a multiple of the least float |
| C99 | IEEE arithmetic; exact `fmod` | monotonicity of rounding and exactness of `fmod`; witnesses evaluated by the kernel |
| C100 | IEEE arithmetic | error analysis with rounding lemmas; monotonicity of every rounded operation; witnesses evaluated by the kernel |
| C101 | IEEE arithmetic and the real number π of Mathlib | bounds on π to twenty decimals; error analysis |
| C102 | IEEE arithmetic | monotonicity of rounding; exactness of differences of near numbers |
| C103 | a grammar of documents as a data type with its text, its tree and a validity predicate (`Spec/PropDoc.lean`) | token by token: every word, gap and operator is read as one token; induction on the entries; layouts outside the grammar refuted by witnesses |
| C104 | `interpolated_value` in IEEE arithmetic | error analysis over `ℚ` with rounding lemmas; witnesses for the two defects |
| C105 | `average`, `median` in IEEE arithmetic | induction over the list with the standard model of rounding; half of a rounded sum is rounded once |
| C106 | `polynomial`, `intersect_y` in IEEE arithmetic | loop invariant with relative errors `(1+u)^k - 1`; exact integers by induction |
| C107 | `ostream << double` (`%g`), `istream >> double` (`num_get`), `<<` and `>>` of vectors, quaternions, angles and bounds, `vec3_( prop_node )` of text (`Model/StreamReal.lean`) | nearest six-digit decimal by the rounding lemma of C82, one unit per decade; the text is a `Decimal` of the specification; the prefix that `num_get` takes is the whole number; six-digit numbers are further apart than the rounding error, so they come back; refuted for seven digits and for infinities |
| C108 | Prefix lemmas for every function of the XML parser: on a beginning of a text it does what it does on the text, or it needs the missing bytes and fails | proved; old contents lost and empty file accepted are refuted |
| C109 | The token loops, the token reader and the tree reader on a beginning of a written word, node and list of nodes; induction over the tree with the relation CutKids | proved; noticing the interruption, termination and faithful last characters are refuted |
| C110 | The loop of `load_ini` on a last line without line break; induction over items and groups with the relations CutItems and CutGroups | proved; noticing the interruption and keeping the kind of a line are refuted |
| C111 | IEEE arithmetic with a correctly rounded square root (`Model/FloatVec.lean`) | rounding errors of the sum and of the root add up; the bound is a statement about real numbers |
| C112 | IEEE arithmetic; the assertion of `quat_from_axis_angle` | errors of the length, its inverse and the product; witnesses found by search, checked by the kernel |
| C113 | IEEE arithmetic, as in C111 | accumulated rounding errors; symmetries by cases on the kinds of numbers; witnesses checked by the kernel |
| C114 | `std::default_random_engine` of libstdc++ (`Model/Random.lean`) | the modulus is prime (Lucas certificate) and the multiplier a generator of its group; the state is a power of it |
| C115 | `generate_canonical` and `uniform_real_distribution` of libstdc++ in IEEE arithmetic | monotonicity of rounding; witnesses found by search, checked by the kernel |
| C116 | `normal_distribution` of libstdc++ in IEEE arithmetic, logarithm as a parameter | the sequence of the engine visits all states, so it reaches one that ends the search; error analysis with bounds on log 2 |
| C117 | `writeSettings` composes `setDelimited` with the `string_cast` models; files as in C29, C52, C78 | invariant `Written` on trees after a sequence of writes: distinct keys, every node on a written path, values only at written paths; then the round trips of each format |
| C118 | `quat_ * quat_`, conjugate, identity in the float model | error of sums of four products and Cauchy-Schwarz against Mathlib's quaternion norm; induction over the list of factors |
| C119 | `quat_ * vec3_` in the float model | errors of the two cross products, the scaling and the sums, measured in Mathlib's norm; conjugation by Q is an isometry |
| C120 | `transform_` in the float model | errors of C119 and of the sums; conjugation is an isometry, so errors pass through a rotation unchanged |
| C121 | `bounding_box_` in the float model | each bound is a fold that keeps the first least element; order lemmas for lists with elements outside the order |
| C122 | Piecewise linear functions in IEEE arithmetic (Model/FloatPiecewise.lean): construction and evaluation with every operation rounded, conversion of the index to int undefined outside its limits. | Error of the step, of the index and of the interpolation are bounded one after the other; the exact function is Lipschitz in the index. |
| C123 | The writer of debug_storage.cpp with its file name and destructor (Model/DebugFile.lean), over the storage, the file system and the text of floats. | The storage holds, after every call, the table that the specification gives for the writes so far; then the theorems on text of storages. |
| C124 | `delayer` with all operations in single precision | Sterbenz' lemma shows that subtracting the window is exact, so only the additions drift; exact refinement of C72's model for dyadic steps; error of the weighted sum; a fixed point of the clock as counterexample |
| C125 | `average_` with all operations rounded | invariant on the two sums with factors (1+u)^n, quotient of perturbed sums; induction over replicated samples for the counterexample |
| C126 | the text of a line of the profiler's report, with all divisions in double precision and `printf` | relative errors of a chain of rounded divisions, decimal digits of a rounded number, bounds on the number of digits |
| C127 | `const` members of `prop_node` as programs of reads and writes of flags and contents, any number of threads, any schedule | an invariant over schedules: each thread does what it would do alone; a race is two accesses of one place by two threads, one of them a write; without threads the programs do what the model of trees says |
| C128 | logging as programs of reads and writes of the level, the list of sinks, the levels of sinks and the streams; `std::cout` takes characters one by one without a race, other streams are ordinary memory | the invariant of C127 with a shared place whose value nobody uses; a ghost list of who wrote which character; races by accesses that a finished thread must have made |
| C129 | `interrupt` and `test_interrupt_flag` as a write and a read of one place | as C128 |
| C130 | calls of the profiler as programs of reads of the thread and changes of the state; the two static variables in the order of their definitions | as C128 |
| C131 | an interpreter of printf formats with typed arguments; a format is specified as a list of pieces, and the text of each conversion by the digits, sign and padding it shows | induction over the pieces; the parser of conversions inverts their text; the library's own formats evaluated symbolically |
| C132 | loading, saving and loading a prop document | every loaded tree has trimmed texts, keys that start with a letter and values or children but not both (induction over the reader); so the round trip of C17 applies; tokens of texts without quotes have no special characters; exactness by following the token loop to the first character that is lost |
| C133 | Catmull-Rom segments in floating-point arithmetic | a calculus of computed numbers with a bound of magnitude and error, applied to the constructor and the evaluation; exact arithmetic on a grid for the end; witnesses by evaluation |
| C134 | trees whose nodes have a flag, a value and a vector of children with its capacity, as in libstdc++ | refinement to the trees without capacities; the flag at a path of positions; induction over sequences of operations |
| C135 | assignment of a vector by one that lies in its own elements, as in libstdc++: new block, or element by element while the source changes | induction on the size of the child: the undefined case reproduces itself one level below until the numbers of children differ |
| C136 | `iirStep`, `iirRun` (Model/FloatFilter.lean) with the operations of Model/Float.lean | local error by a sum of rounding errors over the loop; the error of a run is the response of the recursive part (Spec/FloatFilter.lean) to the local errors, so it is bounded by the sum of the response; induction on the length for the refutations |
| C137 | `channelMeans`, `covariance` (Model/FloatStat.lean) with the operations of Model/Float.lean, on the storage of Model/Data.lean | loops turned into sums over channels; error of the mean (C105), of deviations, products and sums; signs and NaN through the sum by induction; witnesses by evaluation |
| C138 | `linearRegression` (Model/FloatStat.lean) with the operations of Model/Float.lean | error of numerator and denominator as for C137, of the quotient when the denominator is at least twice its error, of product and difference; compared to the line of exact arithmetic, for which C66 holds; witnesses by evaluation |
| C139 | `StreamMem` (Model/StreamLife.lean): blocks of characters, streams with pointers into them, the implicit copy and assignment | simulation of a specification where each stream is a value that names the stream or buffer that keeps its text; invariant: every living block has exactly one owner; what is read later by induction on the program |
| C140 | `MapRefs` (Model/MapRefs.lean): contents of C30, capacity of the vector, references with the epoch of their place | simulation of a dictionary whose references are keys; what programs keep by induction; refutation by filling a map to its capacity |
| C141 | `StorageRefs` and `TableRefs` add to the models of `storage` and `table` which places of the vector a reference may be used for; `addFrameOwn` and `addChannelOwn` are the two functions with an argument that is the storage's own vector. | simulation by a matrix with references to cells; monotone sizes; the flat index of a cell before and after a column is added |
| C142 | A function is a tree of calls of the memoize object (`Body`); `call` runs it with the map, with a bound on the depth of nesting. | the same function without memory (`direct`); soundness and termination by induction over depth and body; for at most one call: what is being computed does not end within the depth of what it calls |
| C143 | An iterator is an index; `loadIt` takes it modulo the size of the buffer, comparisons take it as it is. | representation of C33; the place in the buffer of an element is invariant while the capacity is; counterexamples for every wrapped deque |
| C144 | Model/CurrentFolder.lean: chdir and getcwd over the file system of C50; Props/CurrentFolder.lean | path resolution of a joined name is that of the first name followed by that of the second; the absolute name of a folder resolves to it from everywhere |
| C145 | Model/FileSystem.lean, Model/Include.lean; Spec/Move.lean; Props/Move.lean | induction over levels and trees: a name met while loading is the folder's name, a slash and a name that stays inside; path resolution of such names agrees in both file systems |
| C146 | Model/LogNested.lean: log_string with sinks whose behaviour is a parameter, depth-bounded; Spec/LogNested.lean: inductive relation without cached level; Props/LogNested.lean | soundness by induction over depth, completeness by induction over the relation, termination by induction over levels |
| C147 | Model/LogStatic.lean: life of global_sinks beside that of static objects; Spec/LogStatic.lean; Props/LogStatic.lean | refinement of C43 for the phase in which the vector exists; in the other phases only the cached level is read, which is an invariant |
| C148 | `Model/DataThrow.lean`: what each call of a storage or table leaves behind when it throws, and histories with every exception caught | induction over the history with the representation relation of C36 and C37; extension of matrices for what is kept |
| C149 | `Model/PropRefs.lean`: the vectors of children with the identity of their blocks of memory; references as places in blocks | simulation: paths that can be lost; block numbers are unique, kept blocks stay at their paths |
| C150 | `Model/FileProgram.lean`: programs with tree variables and files in three formats | simulation by numbered trees on a shelf; trees with the same content fit the same formats; round trips of C17, C78, C29 |
| C151 | `Model/CallDepth.lean`: the recursive functions with a limit on active calls and overflow as an outcome | a calculus of programs that need exactly h calls, over sequencing and calls; lengths of the unread text for the bounds; induction on the depth for the texts that overflow |
| C152 | `Model/FloatFrames.lean`: `get_interpolated_value` with `float` and `double` | the fraction of the position is exact; error of the weighted sum from C104 |
| C153 | `Model/Layers.lean`: programs that merge trees one after the other, on top of the settings of C117 | the child with a key after merging (C25) as the first one that is there, by induction on the layers; reading depends on the node at the path only (C21) |
| C154 | `Model/FloatAxes.lean`: `quat_from_axes` with each operation rounded | the exact solution of C60 for the branch taken; comparisons of rounded sums bound the root from below, so that the quotient is stable; C119 for the rotation |
| C155 | `Model/FloatEuler.lean`: `quat_from_axis_angle` and `quat_from_euler` with each operation rounded; `sin`, `cos` and `acos` are parameters, required to be within k units of rounding of the real functions | sine and cosine change at most as much as the angle; C101 for degrees, C112 for the length of the axis, C118 for the products; the rotation is characterised by what it does to the axis and to vectors at a right angle to it |
| C156 | `Model/FloatEuler.lean`: `axis_angle_from_quat` and `rotation_vector_from_quat`, with the conversion to `float` | the axis is the one of `normalize` (C112), rounded again; two sines with nearly the same square differ by at most the root; witnesses for what fails |
| C157 | `Model/FloatDirections.lean`: `quat_from_directions` with each operation rounded; `sin`, `cos` and `acos` are the parameters of C155 | C112 and C113 bound the errors of the directions and of both products; the arc cosine is stable where the sine is not small, by the concavity of the sine and Jordan's inequality; witnesses for what fails |
| C158 | `Model/FloatHeading.lean`: `pitch`, `yaw`, `roll` and `euler_from_quat` with each operation rounded; `atan2` is a parameter | the code reads the angle of two components of the image of an axis under the rotation; the images under two nearby quaternions are near; the angles of nearby points, by Jordan's inequality; C155 for the quaternions that are read back |
| C159 | `Model/FloatPolar.lean`: `vec3_from_polar` with each operation rounded; `sin` and `cos` are the parameters of C155 | C101 bounds the conversion of the angles, the sine and cosine do not enlarge differences; rounded products; the norm of quaternions without real part |
| C160 | `Model/FloatRegressionStep.lean`: the fixed-step `linear_regression` with each operation rounded, `n - 1` as a `size_t` | the stepped positions by induction, error of the sum of products as for C138 plus that of the positions; the closed formula through relative errors, operation by operation; compared to the least-squares line over the exact positions; witnesses by evaluation |
| C161 | `Model/TypeName.lean`: `clean_type_name` with the demangler as a parameter, `register_class` with its default argument | the last colon or space splits the text uniquely; induction over the registrations, then C31; witnesses by evaluation |
| C162 | `Model/FloatSmooth.lean`: `smooth_delayer` with every operation rounded to single precision | backward error: the exact step is what the rounded clock moved by, the difference at the end of a window is exact (Sterbenz); the error of the running sum is bounded by a multiple of the clock, which starts again with every window; the output by C124, the signal that stays the same by C72 |
| C163 | `Model/FileThreads.lean`: the functions of `filesystem.cpp` as programs of system calls, run by any number of processes in any interleaving | invariant: every process is at work or owns the folder it returned, and no folder has two owners, as `mkdir` succeeds only on a new location; for throwing, a predicate over all that others can do between the calls; witnesses by evaluating a schedule |
| C164 | `Model/FileParts.lean`: one file, calls that empty it and write their text in parts, and calls that read it in parts, each with its own position | invariants of single steps: every character is at a place where it may be; with one saver, the file is the beginning it has written; what the last one to open the file has written stays; then C108 to C110 |
| C165 | `Model/ObjectThreads.lean`: the accesses of calls of four kinds of objects, in the machine of C127; `Locked` for calls under a lock | threads that use nothing that others write (C127); calls that change what they find, whatever else they read; an invariant of locked steps about what was computed |
| C166 | `Model/OwnArg.lean`: `iir_filter`, `circular_deque` and `dynarray` with arguments that are places in the object and are read where the code reads them | the places that the body changes before the last read; the refinement of C33; induction over the loop of `std::fill` |
| C167 | `Model/Extrema.lean`: the loops of `min_element`, `max_element` and `find_if`, with `<` and `==` of floating-point numbers | induction over the elements behind those already seen, for elements with a position in a linear order or none |
| C168 | `Model/NoAssert.lean`: the functions that assert something, without it, and with sizes that wrap around | an invariant that keeps the sizes of a deque below 2^64; the assertions change nothing |
| C169 | `Model/ErrorMacros.lean`: statements, and the macros as the statements they expand to in both builds | one lemma for a check before a return; induction over the table for lookup |
| C170 | `Model/FloatCompare.lean`: comparisons of vectors and angles in IEEE arithmetic | places on the line from minus to plus infinity |
| C171 | `Model/Temporaries.lean`: strings with the number of their last change, pointers and references to them | invariants over all operations: what is not touched stays, what is gone stays gone |
| C172 | `Model/IntAngle.lean`: angles of type `int`, with division and conversion that cut off | facts about floor and ceiling; the conversion factor is 3 / 180 = 0 |
| C173 | `Model/IntStat.lean`: the functions with `int` in 32 bits and `size_t` in 64 bits | induction over the sums; division with remainder |
| C174 | `Model/IntWrap.lean`: `wrap` for `int` and `unsigned int` | division with remainder |
| C175 | `Model/IntVec.lean`: vectors of type `int` | whole square roots; the inverse of a number above 1 is 0 |
| C176 | `Model/IntPoly.lean`: polynomials, `delta` and `soft_clamp` with `int` and `unsigned int` | induction over the coefficients and the values, with congruences modulo 2^32 |

## What the code does not do

Where a property is false of the code, a theorem ending in `_refuted` proves it with a witness, and the part that is true is
proved under a stated hypothesis. The list, by area:

* Strings: `str_ends_with` is wrong when the text occurs earlier too; `scan_str` counts one too many; folder of a name
  without separator; the root separator is lost by `parent_path`; extensions with a dotted folder; reals are written with
  six decimals whatever precision is set; vectors and angles are written with six digits; a vector that begins with an infinity is
  read by `>>` as zero; `decode_char` reports length 0 for a character that stands for itself.
* `char_stream`: text before a quote inside a token is discarded; an open quote before a trailing backslash never ends;
  `""` before an operator vanishes; narrow integers are cut silently; range errors of reals are ignored; a copy of a stream made from a string points into
  the string of the other one, so it cannot be read when that is gone, and `s = char_stream( string )` leaves nothing that can be read.
* Property text: blanks that stand alone before a brace or a comment are an error or end the document, so files indented with
  spaces do not load; a quoted `%` starts a comment; a single quote cannot be escaped; an empty comment hides the next line; the compact form does not load again when a group has two entries; quotes that a loaded document needed around `= { } % ; '` are not written again when it is saved.
* INI: a comment hides the next line; items of the main group that follow a group are written into that group.
* XML: a value beside children, further roots, blank values, CDATA and text after markup are lost; odd keys do not load;
  closing names are not checked; character numbers are taken modulo 2^64.
* `prop_node`: listing a tree and asking for unaccessed nodes mark everything as accessed; adding a child when the vector is full clears the
  flags of all descendants, so that values already read are reported as unused; erasing and assigning leave flags with the wrong nodes;
  `n = n[ key ]`, `n[ a ] = n[ b ]` and `merge_prop_nodes( n, n[ key ], false )` can be undefined or give another tree.
* Containers: `circular_deque` (push on a full deque, const `back`, `reserve`), `data_header` (relabelling, construction from
  labels), `storage` (a repeated label leaves a channel behind; the last frame cannot be interpolated), `table` (default
  of a new column, more rows by `resize`), `circular_frame_buffer` (`at`, adding channels when empty; adding
  a channel loses the frames).
* References into containers: `map[ new ] = map[ old ]` of a `flat_map` is undefined when the vector is full, and `sto[ new ] = sto[ old ]` of a
  `storage` with two frames always is, if the old side is evaluated first; `sto.add_frame( sto.data() )` and `sto.add_channel( label, sto.data() )` are undefined
  when there is data; a reference to a value of a `table` refers to another cell after a column is added with room.
* `circular_deque` iterators: `it++` returns a reference to a local variable; after `pop_front` has wrapped around, an iterator to the first element is not `begin()`
  and never comes to `end()`; `push_front` on a full deque moves all iterators by one. Line 56 uses `difference_type` in a way that only some compilers accept.
* `memoize` takes `0.0` and `-0.0` to be the same argument; it calls a function again that has thrown.
* Files: `copy_file` empties the destination when the source is missing or is the destination;
  `create_unique_folder("run/")` ends in `/ (1)`; a stale error code makes a good file load as empty; files are overwritten in
  place, so a save that is interrupted loses the old contents; the beginning of a prop file loads without an error as another tree,
  or never ends loading if it stops behind a backslash; the beginning of an ini file loads as another document unless it stops in
  a name.
* Folders: `current_path( p )` of a missing folder stays in the old one silently; `current_path()` is undefined when the folder is gone, and `get_documents_folder` when
  `HOME` is not set; `get_application_folder` is empty; an absolute name in an `include` works only if the file that has it is named without a folder.
* Profiler: names are compared as addresses, so equal texts are different sections that overwrite each other in the report; the overhead of a section
  that has no finished invocation is shown as `inf` or `nan`.
* Mathematics: `wrap` at negative multiples, `square_wave` for negative arguments, `equals` is not symmetric,
  `quat_from_directions` for opposite vectors, Euler angles are not those of the constructor, `vec4` ignores `w`,
  `irange` with a step that misses the end, `delayer` (initial value, negative weights), far arguments of
  `regular_piecewise_linear_function`.
* Floating point: `clamp` passes NaN; a bounding box made from a point with a NaN stays empty whatever is added, and one of points at
  infinity begins at the largest finite number; `wrap` changes values that are in range already (0.1 in [-180, 180]), can return the upper
  limit and gives NaN when the distance overflows; `soft_clamp` exceeds its limits by a rounding error, is not monotone where its
  parts meet and gives an infinity when the squared boundary overflows; the `double` constant for π is seven units of the last
  place off; degrees to radians and back changes the angle; `interpolated_value` loses the element at a whole index when the next
  one is infinite, can exceed two equal neighbours, and is undefined for an index that is not a number; `average` and `median` overflow
  although the result would be finite, and the average of equal values can exceed them; a polynomial is not a number where a power overflows whose coefficient is zero;
  a vector of finite components has length infinity or zero when the squares overflow or vanish, and normalising it gives the null
  vector or leaves it; a vector or quaternion that has just been normalised can fail `is_normalized`, and `quat_from_axis_angle` then
  stops with an assertion; the cross product of a vector with itself is not a number when products overflow; different vectors can
  have distance zero; `/` multiplies with the rounded inverse, so 49 / 49 is below one and small divisors give infinities;
  `regular_piecewise_linear_function` does not return the stored values at its own points (ten intervals from 0 to 1) and is undefined for
  arguments far outside its range; steps that are small against the time in the current window are lost by `delayer`, which then never
  changes its output; `average_` of equal values can exceed them; a Catmull-Rom segment does not end at its third point, leaves four
  equal points and is not a number for large ones; the output of a stable `iir_filter` never returns to zero when the input does, and stays
  off a constant input; one infinite input spoils all later outputs; a constant channel can have a positive variance, and two channels a
  correlation of more than one; `linear_regression` can find a slope for points on a vertical line, and the wrong one far from zero.
* Threads: `const` members of `prop_node` write the mutable access flag, so two threads that read one node race.
  Lines that threads log to the console can be mixed; logging to one file, or while another thread changes or asks for the global level, is a
  race; so is `interrupt` from another thread, and `profiler::reset`. `instance_thread_` is defined behind the profiler that sets it, so it
  may be initialised again afterwards, and then every call of the profiler throws.
* Formatted text: `stringf` cuts after 255 characters and `messagef` after 1023; text with `%` is not safe as a format; the keys of list items
  are made by passing a `size_t` to `%d`, which is undefined.
* Debug file: a value equal to the number that marks unset cells is overwritten by the next value with the same label.
* Random numbers (with the engine and the distributions of libstdc++): seeds 0 and 1, and seeds that differ by 2147483647, give the same
  sequence; the first `float` of a small seed is small; `uni` can return its upper limit; the second number that `norm` computes is thrown away.
* Others: `hash` sign-extends bytes >= 128; `version` text without a build number; `test_framework::reset`;
  `string_cast<bool>("true")` is false.
* The log: creating, destroying or unregistering a sink in response to a message is undefined; sinks that log see messages in different orders; a static sink, a
  critical message from the destructor of a static object, and any message from it after a level was set without a sink, are undefined if `log.cpp` is initialised too late.
* `storage` and `table`: adding a channel or column with a label that is taken throws, but leaves an unlabelled channel (with values: also
  the frames for them); writing by a new label before there is a frame throws, but leaves the channel.
* References to nodes of a property tree: `push_back` or `operator[]` of a new key invalidates the references to all nodes below when the vector is full, so
  the reference to the first child is invalid as soon as there is a second one; `set` of an existing key invalidates those below that child.
* `load_file` takes every name that does not end in `.xml` for prop: ini files lose their groups without a message, and `.XML` gives an empty tree.
* `load_prop`, `parse_prop` and `load_xml` call themselves for each level of nesting and have no limit: a file of a few hundred
  kilobytes of opening braces overflows the stack (C151).
* `storage::get_interpolated_value` with `float` values cannot address every frame of a storage with more than 2^24 frames, turns a
  frame into not-a-number if the next one is infinite, and can give more than both of two equal values (C152).
* `merge_prop_nodes` does not merge groups: the defaults of a group are lost if the user's file has any setting of that group. With
  overwriting, a tree with a key twice reads differently after it was merged into an empty one (C153).
* `quat_from_axes` does not check its axes: left-handed axes, and axes of other lengths, give a quaternion that does not have length one
  (C154).
* `axis_angle_from_quat` makes the axis as a `vec3f`: for `double` it has the accuracy of `float`, and `quat_from_axis_angle` refuses it. A
  quaternion accepted by `is_normalized` whose real part is above one has an angle that is not a number. Small rotations are lost: the
  angle comes from the arc cosine of a number next to one (C156).
* `quat_from_directions` of a `double` vector and itself can be a half of a turn, as the inner product of the direction with itself is not
  accepted as one while the vector product is zero. For vectors in opposite directions the inner product can be below minus one, which gives
  not-a-number, or the axis can be made of rounding errors and point along the vectors, so that they are not turned at all (C157).
* `euler_from_quat` of a rotation about the first axis by two radians has a yaw of more than two radians (C158, over the reals C77).
* `linear_regression` with a fixed step multiplies three times the step on the way: in single precision a step of 2^50 makes this infinite and the slope zero, and a step of 2^-60 makes it vanish and the slope infinite, for values that are on a line the general form finds (C160). Its positions are stepped on by addition, so from 2^24 a step of one is lost and rising values give a level line (C160).
* `clean_type_name` cuts at the last colon or space, also within the arguments of a template: `std::vector<int>` is called `>`, and classes of the same name in different namespaces replace each other in a `factory` (C161). For text that is not a mangled name it makes a string of a null pointer.
* A `smooth_delayer` loses steps that are short against its window, as a `delayer` does: the clock stands still and the output stays what it was (C162).
* `copy_file` without overwriting looks for the file first and opens it later, so it can replace a file that another program made in between; while a file is replaced, `load_string` can read it as empty without an error (C163).
* Saving and loading is not protected against other programs: who loads a file while it is saved again can get a mixture of the old and the new tree without an error, and two programs that save to one file can leave a mixture of their trees, or characters with code 0 (C164).
* `memoize`, `rand_uni` and `rand_norm` look like functions, but have no lock: calls in two threads are a data race, unless `memoize` was called with the arguments before (C165).
* The const `operator()` of `circular_frame_buffer` has no `return`: using it is undefined (C34).
* `iir_filter` remembers a wrong input if it is given one of its older inputs or outputs by reference (C166).
* `min_element` and `max_element` return the first element if it is not a number, whatever follows (C167).
* Without assertions, `pop_back` on an empty `circular_deque` makes the next element that is added disappear, labels of a storage can be added twice, and `at` reads the next frame for a channel that is not there (C168).
* `back_index` lacks a semicolon behind its assertion, so that a compiler that parses templates before they are used accepts it only without assertions.
* Without exceptions (`FLUT_USE_EXCEPTIONS` 0), `flut_error_if` and `else flut_error` end the program whether or not something is wrong, because the macro is two statements without braces (C169).
* `distance` of different vectors is 0 if their components differ by less than about 10^-162 (10^-23 for `float`) (C170).
* `from_str< const char* >` of a temporary gives a pointer that cannot be used, and a `dictionary` with a temporary as default gives a reference to it if the name is missing (C171).
* `deg( 90 )` is an angle of type `int`, whose value in radians is 0; `sin( deg( 90 ) )` is 0, `cos( deg( 90 ) )` is 1 and `deg( 90 ) * 0.5` is 0 degrees (C172).
* `compute_channel_means` of a `storage< int >` divides by a `size_t`, and the mean of a channel with a negative sum is wrong: that of -1, -1, -1 is 1431655764 (C173).
* `wrapped` of an `unsigned int` below the range gives a number that does not differ by a multiple of the width (C174).
* Vectors of `int` divided by 2 or more, and normalized vectors of `int` with a length of 2 or more, are null vectors (C175).
* A `polynomial< int, D >` computes the power `D + 1` of its argument, which it does not use; a `linear_function< int >` is undefined from 46341 on (C176).

## Not modelled

* Threads, except for `prop_node`, logging, the profiler, the interrupt flag (C127 to C130), files and folders (C163, C164), and `memoize`, `factory`, `dictionary` and random generators (C165); the memory model of C++ beyond the
  rule that programs with races are undefined and others are interleavings; the statistical distribution of random numbers.
* Windows dialogs and API calls.
* `printf`: the flag `#`, `*`, the lengths `h hh j t L` and the conversions `a A p n`; locales other than "C".
* Code that cannot compile when instantiated: `local_vector`, `sorted_vector::find`, `dynarray` move assignment,
  `storage::labels`, `table` const label access, `get_config_folder` outside Windows, `circular_frame_buffer::get_interpolated_value`,
  `vec4` binary minus, `catmull_rom` class, `flag_set::clear(list)`, `key_frame_buffer`, `pattern_match` and `exists` in their
  POSIX branches, `irange` postfix increment, `find` for const containers, the headers in `flut/math/experimental`.
