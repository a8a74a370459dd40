# A Lean 4 model of ecl_core: design

The C++ sources in `/repo` were read as text; nothing was built or run. Everything
below is about a hand-written model; the tie to the code is the file/line citation
on every definition.

## Layout

```
lean/Verif/Core/       build modes, outcomes (ok / throw / undefined behaviour), memory blocks
lean/Verif/Model/      the model, one file per source area; every definition cites file:lines
lean/Verif/Spec/       small independent specifications (queues, numerals, sets, real analysis facts)
lean/Verif/Lemmas/     helper lemmas and invariants
lean/Verif/Props/      the property theorems `Cnn_...`, with a non-vacuity example beside each
```

## Conventions

* **Outcome.** A modelled call returns `Outcome a`: `ok a`, `throw e` (a C++ exception
  carrying the `ErrorFlag`) or `ub` (undefined behaviour: out-of-bounds access,
  modulo by zero, signed overflow, invalid shift, dereferencing an end iterator,
  double delete). `ub` is absorbing. A safety theorem says the outcome is not `ub`.
* **Build mode.** `ecl_assert_throw` / `ecl_debug_throw` throw in `Mode.debug` and are
  no-ops in `Mode.release` (`ecl_exceptions/include/ecl/exceptions/macros.hpp:85-127`).
  `ecl_throw` throws in both (builds with `ECL_DISABLE_EXCEPTIONS` are not modelled
  unless a definition says so).
* **Integers.** `Int`/`Nat` where the code cannot overflow for the stated domain;
  `BitVec`/explicit modulo 2^n where wrap-around or promotion matters. Signed overflow
  is `ub`. The data model is LP64 (int 32, long 64 bit), two's complement.
* **Floating point.** There are up to three models of one function. The first computes with
  exact real numbers or in an ordered field (C39, C51-C69, C77-C83, ...); operations that would
  yield NaN or an infinity are a distinct outcome there where a property depends on it. The
  `...Float` models round after every operation, with any rounding to nearest of the stated
  precision (`Spec/Rounding.lean`, `Spec/Double.lean`); overflow and denormal numbers are
  excluded by hypotheses or absent, as said at the definition (C87, C88, C109-C111, C114, C116,
  C119, C122, C124, C126, C133, C140, C148-C150, C153). The models with NaN and infinities compute exactly otherwise (C54,
  C55, C130).
* **System calls** (clock, pthread, semaphores, sockets, files) are parameters or
  nondeterministic inputs of the model; what is assumed of them is stated at the definition.
* **A property that is false of the code** is handled by (a) a theorem with a concrete
  witness that refutes the full statement (name contains `fails` or `counterexample`), and
  (b) a `_partial` theorem that gives the strongest guarded form that holds.

## Trusted base

* Lean 4.33.0's kernel; the axioms `propext`, `Classical.choice`, `Quot.sound` at most
  (as reported by `#print axioms` for every theorem of `MANIFEST.json`). No axiom is added, no `sorry`, no `native_decide`/`bv_decide`.
* The reading of the C++ source: that each definition in `Model/` says what the cited lines do.
* The C++ facts used: LP64, two's complement, 8 bit signed `char`, unsigned wrap-around,
  integer promotions, `std::map`/`std::set`/`std::vector`/`std::string` behaving as specified;
  the rules for static local variables and for what happens before what, as written out in
  `Model/Singleton.lean` (C151) and `Spec/HappensBefore.lean` (C152, C154, C155).
* Mathlib definitions used in statements of geometry/statistics properties (`Real`, `Real.pi`,
  `Real.sqrt`, `HasDerivAt`, `Nat.choose`, ...).

## What is modelled

| package | modelled (files in `Model/`) | not modelled |
|---------|------------------------------|--------------|
| ecl_command_line | declarations, constraints, parsing, exceptions and their texts, usage, help, version, DocBook (CmdLine, CmdLineProcess, CmdLineSaid, HelpFrame, Usage) | user-written visitors, outputs and constraints |
| ecl_concepts, ecl_mpl, ecl_type_traits | the tables of sizes and precisions that other packages read (MathSimple, Packet) | compile time checks and template machinery |
| ecl_containers | arrays, stencils, fifo, ring buffers, their formatters and converters, memory checks (Array, ArrayMore, Fifo, PushAndPop, ContainerFormatter, Packet, OutOfMemory) | iterators beyond begin/end ranges |
| ecl_converters | all converters (Converters, FloatConverter, Packet) | |
| ecl_core_apps | frame conversions and terminals (Frames, Terminals) | benchmarks, examples, process statistics |
| ecl_devices | console, files, shared files, serial (POSIX and Windows), sockets, string device (Console, Files, FilesWin, SharedFileThreads, Serial, SerialWin, Sockets, StringDevice, Descriptors, Opening, Errno) | the kernel behind the system calls; Windows sockets |
| ecl_exceptions | exceptions, error tables (Exceptions, Errno, Opening) | builds with `ECL_DISABLE_EXCEPTIONS` unless a definition says so |
| ecl_filesystem | real paths (RealPath) | |
| ecl_formatters | integers, floats, strings, hexadecimal (Formatters, StaticBuffers) | |
| ecl_geometry | angles, points, polynomials, splines, segments, poses, trajectories (Angle, CartesianPoint, Polynomial, CubicSpline, TensionSpline, SmoothLinearSpline, LinearSegment, Pose, Odometry, Pascal and their `Float` versions, RootsExtended, Special) | |
| ecl_ipc | semaphores, shared memory (Semaphore, SharedMemory) | the kernel's permission checks |
| ecl_linear_algebra | matrix formatters, Sophus interpolators and conversions (ContainerFormatter, Frames) | Eigen and Sophus themselves (their documented behaviour is used) |
| ecl_manipulators | waypoints and trajectories (Manipulator, LinearTrajectory, TensionTrajectory, DurationFloat) | |
| ecl_math, ecl_statistics | all functions (MathSimple, CumulativeStatistics, StatisticsFloat, CovarianceEllipsoid, Special) | |
| ecl_mobile_robot | differential drive (DifferentialDrive, DriveFloat) | |
| ecl_sigslots | manager, topics, connections, emission, nesting, exceptions, threads (SigSlots, SigSlotsNested, SigSlotsThrow, SigSlotThreads, SigSlotWires) | |
| ecl_streams | text streams, string streams, log streams (TextStream, TextFloat, StreamDevice, StringStream, LogStream, LogThreads, StaticBuffers) | the screen clearing manipulator |
| ecl_threads | threads, mutexes, priorities, on POSIX and Windows, data races on the flag of a Threadable, on what threads leave behind and on the counter of a mutex (Thread, ThreadWin, Mutex, MutexWin, Priority, ThreadableRace, JoinRace, MutexRace, MutexCount) | scheduling inside the operating system (schedules are arbitrary) |
| ecl_time | time stamps, watches, snooze, sleeping, durations, time data, random numbers, on POSIX and Windows (Time, TimeData, TimeWin, ClockFailure, RandomNumbers) | the Mac variants |
| ecl_utilities | flags, function objects, singletons (Flags, FunctionObjects, Singleton) | Parameter, blueprint factories |
| ecl_eigen | | vendored third-party code |

Real memory is modelled only as blocks with identities where a property is about memory.
Tests, examples and benchmarks are not modelled. Many properties combine several files; the
citations at the definitions are the exact list.

## Plan per property

| id | what is modelled | how it is proved |
|----|------------------|------------------|
| C01 | `FiFo` state (data, running index, size) with unsigned 32 bit index arithmetic | invariant relating the ring to a list window, induction over pushes |
| C02 | as C01 with resize, `ub` on out-of-range access and modulo zero | refuted (push, shrink, push; length 0); `_partial`: safe for histories whose resizes never go below the running index |
| C03 | fixed ring buffer with leader/follower, debug/release | refinement to a bounded list queue, induction over operation lists |
| C04 | dynamic ring buffer, resize | same refinement without resize (`_partial`); refutations for resize and the default constructor |
| C05 | arrays as length-indexed blocks; at / [] / front / back | case analysis for all sizes, both modes |
| C06 | list initialiser as write cursor | induction over the value list |
| C07 | heap of buffers with identities; copy, assign, resize, write | frame lemma for independence; self-assignment refuted |
| C08 | byte block with guard sections | invariant over write lists |
| C09 | stencil as offsets into an array, with the code's checks | case analysis; at(0)/one-past-end/sub-stencil refuted, guarded form proved |
| C10 C11 | shift/or loops with integer promotion on `BitVec`/`Int` | bytes-to-value fold lemma; 64 bit: undefined shift witness |
| C12 | four-state parser automaton | induction on token lists; rejection characterised, truncation refuted |
| C13 | digit extraction loop | equality with an independent numeral spec; INT_MIN refuted |
| C14 | buffer fill from the end with capacity checks | fits-iff theorem |
| C15 | digit conversions | case analysis over all ints/chars |
| C16 C17 C18 | timestamp arithmetic on (sec,nsec) integers | omega after case analysis, value function sec*10^9+nsec |
| C19 | division/remainder and fields of timespec; call histories | arithmetic; stale field refuted |
| C20 | snooze state machine | induction on number of calls; exact-second carry refuted |
| C21 | stopwatch over clock reading sequence | telescoping induction |
| C22 | printing function | parse-back spec |
| C23 | char vector with read/write positions, growth | refinement to byte queue below capacity; overflow witness |
| C24 C26 | fixed buffer with flush | induction over writes: emitted ++ buffered = written |
| C25 | map name -> (file, count) | invariant count = live handles |
| C27 | timeout translation and read loop on a fake clock | arithmetic; VTIME truncation refuted |
| C28 | return code decision tables | case analysis over syscall results |
| C29 C30 C31 | manager/topics/sigslots as finite maps and sets; handle counts | invariants over op lists |
| C32 | interleaving transition system with check-then-act unlock | invariant; race witness |
| C33 C34 | deadline arithmetic, pthread result codes | omega; witnesses |
| C73 | mutex owner, pthread result codes by mutex type, lock counter | refinement to ownership over interleavings |
| C74 | flag, callers between test and set, running threads | invariant over interleavings, race witness |
| C35 | thread object automaton with resource counts | reachable-state invariant, double free witness |
| C36 | priority tables over system range parameters | arithmetic |
| C37 | exception record and rethrow chain | induction on depth |
| C38 | bit vectors | extensional lemmas |
| C39 | ordered field functions | case analysis |
| C40 C41 C75 C76 | formatter records (integers, floats with printf as parameter, strings), padding; temporary members as optional values | list lemmas, simulation by permanent/temporary settings |
| C77 | cube root and norms over ℝ | Mathlib's rpow and Euclidean space |
| C42-C46 | character-level readers of the text stream | parser-versus-numeral spec; refutations near the maximum and at end of input |
| C47 | mode map | invariant over call lists |
| C48-C50 | argument records of the six classes, constructors, xor groups, the parse loop on lists of characters; values are read by a per-argument function | induction over argv with an invariant relating requiredCount to the set arguments; refutations by evaluation |
| C51 | real arithmetic with truncated remainder | floor lemmas |
| C52 C53 C54 C55 C78 | coefficient functions over an exact field, blueprints, roots with NaN as a distinct result (and once more with all special values of `double` computed), extrema, intersection with its failure flag | polynomial identities by `field_simp`/`ring`; derivative theorems; branch witnesses |
| C56 C57 C58 C59 | spline construction (tridiagonal elimination), evaluation | induction over elimination; local identities at knots |
| C60 C61 | segment geometry over reals | convexity/quadratic argument; vertical sign witness |
| C62 C63 C79 | SE(2) and SE(3) algebra, differential drive | rotation matrix identities, `Real.cos_add` etc. |
| C64 | stream-insertion model | refuted/partial |
| C65 | Welford recurrence | induction over the data list |
| C66 C80 | 2x2 eigen computation, intercepts; the solver of the 3x3 case is a parameter | algebraic identities; sine for cosine refuted |
| C67 | triangle construction loops | induction with `Nat.choose` |
| C68 | event window state machine | induction over events |
| C69 C81 | waypoints, validation, duration loops | invariants of the loops over joints and segments |
| C82 | both pseudo points, quintic corner checks, spline generation and the stretching loop | invariant of the stretching loop over C53, C55 and C59; endless stretching refutes termination |
| C83 | knot times, natural tension splines of all joints, the three stretching loops, both quintics and the three-part evaluation | invariants of the loops over C53, C55, C58 and C69; large limits make all loops end at once; two families of waypoints refute continuity of acceleration and position |
| C70 | `getchar`/`fgets` loops of the console input | prefix of the input; bytes 255 and NUL refuted |
| C71 | file as a byte list with an offset, the two open modes | induction over writes; missing truncation refuted |
| C72 | the errno tables of both reporting styles | equality for every errno; exact exception sets |
| C84 | what the name stands for, memory objects with size and bytes, handles with the phase of their constructor or destructor, every system call an action with told failure | invariants over all interleavings (one creator, one object while the name is kept, bytes follow the last store); counterexample histories for name removal, initialisation race, sizes, crash, leak, errno |
| C85 | The format string kept by the converter as text, edited by each call as the code does and read again by an executable snprintf for `%.nf` over the rationals; the boolean copies | The returned text is a correctly rounded numeral, by the invariant that the kept format always has the shape the next call edits; counterexamples by evaluation |
| C86 | The function with the C library's answer as a parameter, the buffer as possibly unwritten, and a count of live buffers | Case analysis on the answer; induction over sequences of calls for the memory |
| C87 | The conversions and statistics over the reals with a rounding function after every floating point operation; the spec of a rounding to nearest with 53 bits, and one such rounding constructed | Properties of nearest doubles (grid, monotone, relative error); the deviation around the cut off average by completing the square; counterexamples hold for every rounding to nearest |
| C88 | rand as an arbitrary function of seed and position; the program's global state (seed, position, saved number); floating point with a rounding function; the rejection loop with fuel; int separately | Nearest doubles keep signs and bounds; RAND_MAX is odd, so no coordinate is zero; induction over programs; int loop by induction on the passes |
| C89 | Points of the plane over the reals and over int with overflow and cut off; element access; homogeneous points with their constructors and setters | Points as complex numbers: norm, argument and multiplication by a unit; integer square root; induction over the setters |
| C90 | spacePrint on the text left to print, with the read before the text as undefined; shortID and longID of all argument classes; usage line; DocBook substitutions and groups | Specification of a layout as an inductive relation; induction over the lines; permutations; link to the parser model |
| C91 | The three interpolators over abstract groups of rigid motions; the exponential and logarithm of the plane in closed form | Group algebra; one parameter subgroups; complex exponential |
| C92 | The conversion functions with rotations as linear maps of space; the arithmetic of the two programs | Complex argument and exponential; half angle formulas; the period 4 pi of quaternions |
| C93 | A machine with a stack of running emissions (two iterators each) and running functions; iterators become invalid with the erased element; the mutex between process and the destructor | Simulation of every step by plain relations of connections; invariant of the iterators; log of deliveries against the connections at each moment |
| C94 | One endpoint; each access to mutex and count is a step; threads with stacks of nested calls; destructor in another thread | Invariant of count, owner and call depth over all orderly schedules; concrete schedules for the refutations |
| C95 | Critical section (owner and depth), counter, program counter of each thread; steps are the system calls and the plain test of the counter | Invariant over all schedules; a wait invariant over arbitrary continuations for the refutation |
| C96 | Priority numbers of the system, SetThreadPriority, both start paths, cancel, join, the thread and its heap object | Case analysis for the levels; invariant over histories for the life of the object |
| C97 | OFile of C71 with the text mode of the C library | Simulation by the POSIX model on translated buffers, then C71 |
| C98 | Members, handles of the port, queue of the driver, the receiving thread, close as begin, join and end | Invariants over all histories of calls and thread steps |
| C99 | 32 bit unsigned long and long, stamp, the watch on top of it, the sleepers | Arithmetic; induction over histories of calls |
| C100 | Variables as cells that are alive or not, seven ways to make function objects, calls | Induction over histories: what happens to one function object |
| C101 | The formatter's settings over the model of Format<double> (C41), the search for the least and greatest element, the width computed from them (log10 without rounding errors) | A numeral with d decimals has at most as many characters as the chosen width; simulation of the reader's view |
| C102 | The formatters' settings over the model of Format<double> (C41) and of hexadecimal numbers (C40) | Simulation of the reader's view; induction over the calls |
| C103 | The loop of the writers over fgets, with the model of the hexadecimal converter (C15) | Induction over the length of the input |
| C104 | The loops of the readers, those of sockets over the model of reading sockets | Induction over the results of reading |
| C105 | The calls that open and close descriptors, over the table of descriptors of the process | Invariant over all histories, for every rule by which the system chooses numbers not in use |
| C106 | Text streams over a device whose reads give a byte, nothing or fail, refining the model of streams over a text (C42-C46) | Induction over the results of the reads |
| C107 | Threads with program counters between the mutex calls and the unprotected accesses; objects with count, flag and life; the variables each next step touches | Invariant count = handles + calls in flight over all schedules; ownership of names for race freedom; a stuck invariant over all continuations for the failed open; concrete schedules for the races |
| C108 | The calls that the pieces and line ends of several log streams make on the shared file model | Simulation of the model by the specification of shared files (C25), then induction over the acts with the unfinished line of each stream as its buffer; concrete runs for the refutations |
| C109 | wrap_angle, the operators of Angle and the unit conversions with every rounding of double and float; fmod exact, as proved for numbers of any precision | Monotonicity of rounding for the ranges; an error analysis of the steps with bounds of pi; exact computation for the refutations |
| C110 | push_back, clear, size, mean and variance with every operation rounded, for numbers of any precision | Invariant of Welford's recurrence with error bounds, by induction on the values since the last clear; exact computation of the mean with the counter at its limit for the refutation |
| C111 | getFloatFromStream with every operation rounded, the multiplier in float and the sum in the type read into | Induction on the digits with error bounds of the multiplier and the sum; exact evaluation under any rounding to nearest for the refutations |
| C112 | the three reading functions and formatFixed as programs of loads and stores on a static array per instantiation; threads interleaved in any order | each program gives its stand-alone result from any contents of the array; invariant over schedules; concrete schedules for the refutations |
| C113 | construction, declaration and parsing of many CmdLine objects over one set of static variables | simulation between the process and, for each command line, the process that has only its operations; induction on the program; an invariant of parse shows which texts can set the ignore flag |
| C114 | evaluation, derivatives, linear and quadratic roots with every operation rounded to a nearest double | forward error analysis by induction on the evaluation loop, with composition lemmas for errors of rounded sums and products; residual identity for the quadratic formula; concrete roundings for the refutations |
| C115 | open of every device and the constructors of the streams, with the macros expanded for both builds | case analysis over build, state and system results; the tables of error numbers of C72 never give NoError |
| C116 | squaredDistanceFromPoint and distance with every operation rounded to nearest, double for the segments and float for norms | relative error of the two dot products, of the quotient times the length by Cauchy and Schwarz, clamping is 1-Lipschitz, triangle inequality; running minima stay close to those of the exact loop of C60 |
| C117 | the tables of manager, topics and endpoints as memory cells, each call a program of single reads and writes, any number of threads interleaved | footprints of the calls (cells written and read, given the tables at the beginning) are disjoint for separate calls; invariant: what each running call will still do equals what it does when run at its beginning in the sequential history; the sequential history refines a relation of who publishes and subscribes |
| C118 | the String device with its block, recorded length and cursors; the stream's converter with its buffer of 30 characters and its format; all inserters and extractors | simulation of the plain text by the buffer for histories within a guard; induction over the uses of a queue of values |
| C119 | composition of both pose classes with the rounding of every operation and inexact library functions | induction over the motions with the error vectors of the two rows of the matrix and of the position as complex numbers; a sum of two squares that is a power of four |
| C120 | the constructors' checks, the tracker, add and xorAdd with the comparison of arguments | case analysis of every call under a correspondence between the list of arguments and the declarations, induction over the program |
| C121 | A byte buffer, stencils made for each call on it, and numbered converters with their stored error; the loops of the converters through the stencil's checked access. | Refinement of the specification (a buffer of little-endian fields and lists of failed converters) over all histories; an invariant over all defined histories for the fields that are not written to. |
| C122 | the kinematics with the rounding of every operation on doubles, Eigen's inverse of a 2x2 matrix included | relative error bounds of each operation; a perturbation lemma for journeys on top of the drift bound of C119; exactness of straight motions from the fact that a quotient of two doubles is never half way between two doubles |
| C123 | the counter and the mutex of every endpoint, and functions that may throw at any call | an invariant between counter, mutex and the log of calls and returns; induction over the depth of relays |
| C124 | the blueprints and shift_horizontal with the rounding of every operation on doubles | a calculus of counted roundings: a number computed with k roundings is within (1+2^-53)^k-1 of a majorant of the true one; the majorants are polynomials with nonnegative coefficients |
| C125 | arrays on a heap with an oracle for new, the text device with the same oracle, connectSignal/connectSlot stopped at each insertion | refinement of a shelf of values that knows no heap, with an ownership invariant; induction over histories; case analysis of the failing step |
| C126 | the elimination, back substitution, end rows and pieces with the rounding of every operation on doubles | the pivots stay above 1.49 and the coefficients below 0.51 in spite of rounding, so every row has a residual of 200 units of the second differences; diagonal dominance turns the residual into an error of the second derivatives of the same size, and the pieces with nearby second derivatives are compared as cubics |
| C127 | TimeStamp::stamp, the watches, Snooze, FrequencyMonitor and the sleep classes with readings that may fail; an unwritten timespec is indeterminate and its use undefined | simulation of watches that report, stay silent or stand still; induction over readings and calls |
| C128 | the exceptions with their texts, parse with the exception it ends with, the first lines of failure, and what() with its static string | a simulation of the model of C48 by forgetting texts; an induction over words and arguments which keeps that the current text is the word with some letters starred |
| C129 | version, usage, failure, _longUsage with their blank lines and titles, the visitors and the exits | a calculus of documents: each piece of output either shows its paragraphs or is undefined, and this is preserved by printing one piece after the other; invariants of declarations for the uniqueness of places |
| C130 | the functions over a type of numbers, infinities and NaN with the comparisons as written | IEEE arithmetic as case distinction; invariants over histories for angles and statistics; induction over the trajectory with the least candidate so far |
| C131 | the splines and both trajectory builders over an abstract arithmetic with IEEE's rules for NaN; loops with a bound on the passes that is universally quantified | NaN is followed from the datum to the coefficient of third degree of the quintic that is checked; an invariant says that stretching keeps every NaN; for tension zero the lookup of segments is shown to succeed on increasing knots |
| C132 | Model/TensionTrajectory.lean, whose loops take a bound on the passes | the system for the second derivatives is diagonally dominant by a margin that does not shrink when segments grow, so a broken limit at the peak of the first joint that breaks one means a short segment, and a potential over the durations falls with every pass; values and slopes of the spline are bounded for all durations, so the quintics at the ends need only enough time |
| C133 | Spec/Range.lean: numbers of a format with limited exponents and roundings to a nearest one; the code is that of Model/AngleFloat, TextFloat, PolynomialFloat and SegmentFloat | on arguments that neither exceed the largest number nor fall between the subnormal ones such a rounding is one without limits, so C109, C111, C114 and C116 carry over where all intermediate results are shown to be such arguments; otherwise directly with an absolute error of half the smallest number |
| C134 | the exact models of splines and trajectories and the ones over an arbitrary arithmetic; Spec/RealArithmetic.lean: the real numbers as an arithmetic and the translation of data, field by field | function by function by induction over the loops; the systems of the tension splines by comparing array loops with recurrences; the pull loops by their doubling |
| C135 | OConsole and EConsole with the answers of the terminal, the 32 bit counter of the loop and the destructor; the specification cuts the stream into blocks | the loop equals the blocks of the stream by induction; histories by an invariant; endlessness by the counter staying below 2^32 |
| C136 | OFile with the buffer of its FILE and the answers of fwrite, fflush, fclose, open and fdopen, in three kinds of builds | an invariant (stored bytes and waiting bytes make up what was written) by induction over the history; definedness by a three-state automaton |
| C137 | main as constructions, starts and waits, destruction in reverse order at the end of the block or by an exception; threads as the parts they use, at any time | an invariant over all schedules for sufficiency; for necessity a schedule is built for each way of breaking the rule |
| C138 | the list of array accesses, allocations and checks of each constructor, run over array sizes only, with 32 and 64 bit wrap around | each list of accesses is shown to stay inside exactly when the sizes do; comparison with the models of the values |
| C139 | one handle: buffer, bytes the file has taken, answers of fwrite, error flag | the loop is solved in closed form by blocks of 4096; invariants over histories; simulation with the model of many handles |
| C140 | `compute` of the planar class with every operation rounded by a parameter, square roots of negative numbers as NaN | error analysis operation by operation for any number of bits; witnesses by exact computation of every rounded operation, for any number of bits |
| C141 | the natural tension spline and the natural cubic spline with exact numbers; the same construction over an arbitrary arithmetic, instantiated with doubles that overflow to infinities | diagonal dominance of the tridiagonal system bounds the accelerations; Taylor bounds of sinh and cosh; a mean value argument from second derivatives to values; exact computation of each rounded operation for the witnesses |
| C142 | Objects with the pointer they copy, the things acquired and not released; handles of one shared file with the instance and its count; consoles with their buffers over one terminal | Invariant of exclusive ownership for histories without copies of holders; released things stay released and unheld ones stay unreleased for every continuation; the count of a shared file against the number of openings |
| C143 | State of the formatter with its float format, temporary settings and the pose that waits; the text of numbers is a parameter | Refinement of a reader's view by induction over the calls; the marks in the text separate the numerals uniquely |
| C144 | The devices with their descriptor numbers and open flags, the table of descriptors of the process, and what arrived where | Invariant: open devices have different numbers, each leading where the plan says, and every open number is some device's; a plan without numbers predicts what arrives |
| C145 | Objects with the handle they copy and the flag of join, the threads that ended and those given back | Invariant: every thread is given back or has exactly one responsible object; for the refutations, properties of one handle that every continuation keeps |
| C146 | Handles with the address they copy, the mappings of the process, names and memory objects | Refinement to handles that show objects, without addresses; for the refutations, an address without mapping that every continuation keeps so |
| C147 | The members of a device and the accesses of read and write to them one by one, for three classes and two builds | Invariant: where a thread can be, given the possible answers; explicit schedules for the converse |
| C148 | Division, intersection and extreme values with a rounding after every operation | Backward errors of each step; for the extrema, the rounded values tested against the exact critical points; explicit doubles for the refutations |
| C149 | The branches of the cubic formula with a rounding after every operation, the C library arbitrary | Error bounds of p, q and the discriminant relative to their terms; the argument of acos bounded from the margin; the cosine formula with perturbed angles for the residual; explicit doubles for the refutations |
| C150 | The constructor with a rounding after every operation | Backward errors of slope and intercept; the foot of the perpendicular as the point of the line |
| C151 | The guard of the static local variable, and the list of completed static objects | Invariants over event lists; the order of destruction is the reverse of the order of completion |
| C152 | Accesses to the flag, memory of the task, and making of the thread, over executions of any threads | Induction over happens-before: nothing of the thread's end leads to other threads except through memory given out again |
| C153 | Both loops with a rounding after every operation | Relative errors of one difference and one quotient; induction over joints and segments |
| C154 | The actions of the calls of the owner and of the thread; the end of a thread and joining as a mutex of their own | Composition of program order with the edge from the end of the thread to join; induction over happens-before for the refutation |
| C155 | The accesses of each call to the counter and to the mutex; executions and happens-before from Spec/HappensBefore | Every use lies between taking and letting go by the order of its thread; exclusion by the system orders two such spans; induction over happens-before for the refutation |
| C156 | Reads, writes and waits of each call as separate steps of any number of threads, 32 bit counter | Invariants: the counter is the sum of what threads have counted, and values read are still the value; ownership; explicit rounds by induction for the refutation |

Nothing in the list is outside what a model can express; what is left out of a property is
said in its note in `MANIFEST.json`.

## Tests of the theorems

`seeded/LOG.jsonl` has one line per wrong program tried: the model was edited in a scratch copy
and everything rebuilt. `failed` are the declarations that no longer check, `tightened` those
that were strengthened because the edit had gone unnoticed before.
