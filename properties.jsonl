{"id": "C01", "title": "FiFo is a sliding window", "statement": "After constructing a FiFo of length N>0 filled with v and performing any number of push_back calls, operator[](i) for 0<=i<N returns the i-th oldest of the last N values, counting the N initial copies of v as the oldest pushes.", "quantifier": "every length 0<N<=2^31 (what an int index can address), every initial value, every finite sequence of push_back calls, every index i<N", "why_tests_cant": "The property ranges over histories of unbounded length and over all lengths; wrap-around happens at a different point for every length.", "anchors": ["ecl_containers/include/ecl/containers/fifo.hpp: FiFo::FiFo, FiFo::operator[], FiFo::push_back, FiFo::fill, FiFo::get_idx"]}
{"id": "C02", "title": "FiFo operations stay inside its storage", "statement": "No history of construct / push_back / operator[] / fill / resize calls on a FiFo reads or writes outside the storage of the buffer or divides by zero.", "quantifier": "every history of public calls with arbitrary lengths and indices", "why_tests_cant": "The failure needs a particular order of pushes and a shrinking resize; random unit tests use one order.", "anchors": ["ecl_containers/include/ecl/containers/fifo.hpp: FiFo::resize, FiFo::push_back, FiFo::operator[]"]}
{"id": "C03", "title": "PushAndPop (fixed size) is a bounded evicting queue", "statement": "A PushAndPop<T,Size> behaves as a queue that keeps at most Size elements: push_back appends and, when full, evicts the oldest; pop_front returns and removes the oldest; size() is the number stored; operator[](i) with i<size() is the i-th oldest; pop_front on an empty queue is rejected (debug builds).", "quantifier": "every Size, every finite sequence of push_back, pop_front, clear and fill calls", "why_tests_cant": "Ring-buffer wrap-around and leader/follower collision depend on the whole history.", "anchors": ["ecl_containers/include/ecl/containers/push_and_pop/push_and_pop_fixed.hpp: PushAndPop<Type,Size>"]}
{"id": "C04", "title": "PushAndPop (dynamic size) is a bounded evicting queue", "statement": "A PushAndPop<T,0> constructed with length n behaves as a queue that keeps at most n elements, with the same push_back, pop_front, size, operator[] contract as the fixed size version, including after resize, and never touches memory outside its buffer.", "quantifier": "every length n, every history of push_back, pop_front, clear, fill, resize", "why_tests_cant": "Resizing leaves indices from the old geometry behind; only particular histories expose it.", "anchors": ["ecl_containers/include/ecl/containers/push_and_pop/push_and_pop_dynamic.hpp: PushAndPop<Type,0>"]}
{"id": "C05", "title": "Array element access is bounds-checked", "statement": "Array<T,N>::at(i) returns element i when i<N and throws OutOfRangeError otherwise in every build mode that has exceptions; operator[](i) agrees with at(i) in debug builds; front() and back() are elements 0 and N-1.", "quantifier": "every size, every index, both build modes, fixed and dynamic arrays", "why_tests_cant": "All sizes and indices, and both build modes.", "anchors": ["ecl_containers/include/ecl/containers/array/array_mem_check.hpp: Array::at, operator[]", "ecl_containers/include/ecl/containers/array/array_no_mem_check.hpp: Array::at, operator[]", "ecl_containers/include/ecl/containers/array/array_dynamic_no_mem_check.hpp: Array::at, operator[], front, back"]}
{"id": "C06", "title": "Comma initialisation fills an array exactly", "statement": "`array << v0, v1, ..., vk` stores vi at index i for every i, leaves the later elements unchanged, and in debug builds throws OutOfRangeError exactly when more values than elements are given, without writing outside the array.", "quantifier": "every array size and every number of supplied values", "why_tests_cant": "Unbounded list length against every size, including size 0.", "anchors": ["ecl_containers/include/ecl/containers/initialiser.hpp: BoundedListInitialiser", "ecl_containers/include/ecl/containers/array/array_no_mem_check.hpp: operator<<"]}
{"id": "C07", "title": "Copying a dynamic array yields an independent equal array", "statement": "After b = a (or copy construction) b has the size and elements of a, and later writes to one do not change the other; assigning an array to itself leaves it unchanged.", "quantifier": "every pair of arrays, every later write, including aliasing of source and target", "why_tests_cant": "Aliasing between source and target and all sizes; self-assignment is rarely tested.", "anchors": ["ecl_containers/include/ecl/containers/array/array_dynamic_no_mem_check.hpp: Array(const Array&), operator=, resize", "ecl_containers/include/ecl/containers/array/array_dynamic_mem_check.hpp: operator="]}
{"id": "C08", "title": "Memory-checked arrays detect over- and under-runs", "statement": "With memory checking, if every write lands inside the array the under-run and over-run queries report false; if some write within the four guard bytes on either side changed a guard byte the corresponding query reports true.", "quantifier": "every array size, every sequence of byte writes inside the array or its guard sections", "why_tests_cant": "Ranges over all write sequences.", "anchors": ["ecl_containers/include/ecl/containers/array/array_mem_check.hpp: bufferUnderRun, bufferOverRun, bufferOverFlow, initialiseMagicSections", "ecl_containers/include/ecl/containers/array/array_dynamic_mem_check.hpp: bufferUnderRun, bufferOverRun, bufferOverFlow"]}
{"id": "C09", "title": "Stencils are in-bounds windows on an array", "statement": "A stencil of length n at offset s with s+n<=array size views exactly elements s..s+n-1: reads return the array's element, writes go through, at(i)/operator[](i) accept exactly i<n, sub-stencils stay inside the parent stencil.", "quantifier": "every array size, offset, length, index, chain of sub-stencils", "why_tests_cant": "Boundary values for every size and nesting depth.", "anchors": ["ecl_containers/include/ecl/containers/stencil/stencil.hpp: Stencil", "ecl_containers/include/ecl/containers/stencil/specialisations.hpp: Stencil<unsigned char*>"]}
{"id": "C10", "title": "Byte-array conversion round-trips integral types up to 32 bits", "statement": "Converting any integral value of 1, 2 or 4 bytes to bytes and back gives the original value; the byte order is little-endian; a byte array of another size is rejected.", "quantifier": "every value of every 8, 16 and 32 bit signed and unsigned integral type, every byte array length", "why_tests_cant": "2^32 values and sign-extension corner cases.", "anchors": ["ecl_converters/include/ecl/converters/to_byte_array.hpp: Converter<vector<char>/vector<unsigned char>,Integral>", "ecl_converters/include/ecl/converters/from_byte_array.hpp: Converter<Integral,ByteArray>"]}
{"id": "C11", "title": "Byte-array conversion round-trips 64 bit integral types", "statement": "Converting any 64 bit integral value to bytes and back gives the original value, with no undefined shift.", "quantifier": "every 64 bit value", "why_tests_cant": "2^64 values; the failure is undefined behaviour that may look right on one compiler.", "anchors": ["ecl_converters/include/ecl/converters/from_byte_array.hpp: Converter<Integral,ByteArray>"]}
{"id": "C12", "title": "Hex string to bytes parsing", "statement": "The text-to-bytes converter maps a space separated list of tokens 0xHH to the listed bytes in order and reports an error for text that is not of this form.", "quantifier": "every input string", "why_tests_cant": "All strings, including truncated and malformed ones.", "anchors": ["ecl_converters/include/ecl/converters/to_byte_array.hpp: Converter<vector<char>,char*>, Converter<vector<char>,std::string>"]}
{"id": "C13", "title": "Integer to std::string is the decimal numeral", "statement": "Converter<std::string>(i) returns the canonical decimal numeral of i (no leading zeros, '-' iff negative) and parsing it gives i back, for every int.", "quantifier": "every int value", "why_tests_cant": "2^32 values, with INT_MIN a special case.", "anchors": ["ecl_converters/include/ecl/converters/string.hpp: Converter<std::string,int>", "ecl_converters/include/ecl/converters/integers.hpp: Converter<int,std::string>"]}
{"id": "C14", "title": "Integer to char buffer conversion fits or reports", "statement": "Converter<char*> of an integral value writes the canonical decimal numeral ending in NUL inside the supplied buffer when it fits, and otherwise returns a null pointer without writing outside the buffer.", "quantifier": "every integral value and every buffer size", "why_tests_cant": "All values times all buffer sizes.", "anchors": ["ecl_converters/include/ecl/converters/char_strings.hpp: CharStringBuffer, convertUnsignedIntegral, convertSignedIntegral"]}
{"id": "C15", "title": "Single digit conversions", "statement": "Converter<char>(n) for a digit 0..9 gives the character, Converter<int>(c) inverts it, and anything outside is rejected in debug builds.", "quantifier": "every int and every char", "why_tests_cant": "All inputs, both directions and build modes.", "anchors": ["ecl_converters/include/ecl/converters/char.hpp: Converter<char,int>", "ecl_converters/include/ecl/converters/integers.hpp: Converter<int,char>"]}
{"id": "C16", "title": "Timestamp addition is exact and normalised", "statement": "a+b and a+=b represent exactly the sum of the two durations and, when a and b are normalised (|nsec|<10^9, nsec and sec of the same sign), the result is normalised too.", "quantifier": "every pair of timestamps whose sum is representable", "why_tests_cant": "All pairs of signs and carries.", "anchors": ["ecl_time/src/lib/timestamp_base.cpp: TimeStampBase::operator+, operator+="]}
{"id": "C17", "title": "Timestamp subtraction is exact and normalised", "statement": "a-b and a-=b represent exactly the difference of the two durations and, when a and b are normalised, the result is normalised too.", "quantifier": "every pair of timestamps whose difference is representable", "why_tests_cant": "All pairs of signs and borrows; the failing region needs mixed signs.", "anchors": ["ecl_time/src/lib/timestamp_base.cpp: TimeStampBase::operator-, operator-="]}
{"id": "C18", "title": "Timestamp comparison orders time", "statement": "On normalised timestamps <, <=, >, >=, ==, != agree with the order of the durations they represent, hence form a total order.", "quantifier": "every pair of normalised timestamps", "why_tests_cant": "All pairs.", "anchors": ["ecl_time/src/lib/timestamp_base.cpp: operator<, operator<=, operator>, operator>=, operator==, operator!="]}
{"id": "C19", "title": "Sleep requests ask for the requested time", "statement": "Sleep, MilliSleep, MicroSleep and NanoSleep pass to the operating system a valid timespec (0<=nsec<10^9) whose total equals the requested duration, both for the constructor-fixed and the call-time argument.", "quantifier": "every requested duration, every previously configured duration of the same object", "why_tests_cant": "All durations and call histories; stale fields only show on particular sequences.", "anchors": ["ecl_time/src/lib/sleep_pos.cpp: Sleep, MilliSleep, MicroSleep, NanoSleep"]}
{"id": "C20", "title": "Snooze keeps a drift-free schedule", "statement": "The k-th call of a Snooze started at time t0 with period p asks to be woken at exactly t0+k*p as long as no call comes late (with validation disabled: always), with every requested wake-up time a valid timespec.", "quantifier": "every start time, period and number of calls", "why_tests_cant": "Unbounded number of calls; carry at an exact second boundary.", "anchors": ["ecl_time/src/lib/snooze_pos.cpp: Snooze::initialise, operator(), add_period"]}
{"id": "C21", "title": "StopWatch splits add up", "statement": "For any sequence of clock readings, the sum of split() results since restart equals elapsed() at the time of the last split, and restart resets both.", "quantifier": "every sequence of clock readings and calls", "why_tests_cant": "Unbounded call sequences.", "anchors": ["ecl_time/src/lib/stopwatch.cpp: StopWatch::restart, elapsed, split"]}
{"id": "C22", "title": "Time stamp text is the decimal duration", "statement": "Printing a normalised timestamp yields the sign, integer seconds, a point and nine zero padded digits denoting exactly its duration.", "quantifier": "every normalised timestamp", "why_tests_cant": "All values including negative sub-second ones.", "anchors": ["ecl_time/include/ecl/time/timestamp_base.hpp: operator<<"]}
{"id": "C23", "title": "String device is a byte queue", "statement": "Reading from the String device returns the bytes written, in order, each once, for any interleaving of writes and reads, and no write touches memory outside its buffer.", "quantifier": "every interleaving of write(char), write(s,n), read, clear", "why_tests_cant": "Growth happens at a particular total length; the histories are unbounded.", "anchors": ["ecl_devices/src/lib/string.cpp: String::write, read, grow, clear, remaining"]}
{"id": "C24", "title": "Console output is complete and ordered", "statement": "After any sequence of write and flush calls on the console device ending in flush, the bytes that reached the terminal are the concatenation of the bytes written.", "quantifier": "every sequence of writes, every content", "why_tests_cant": "Buffer boundaries interact with write lengths; contents are arbitrary bytes.", "anchors": ["ecl_devices/src/lib/console.cpp: OConsole::write, flush", "ecl_devices/src/lib/detail/character_buffer.cpp: CharStringBuffer::append"]}
{"id": "C25", "title": "SharedFile handles share one file until the last closes", "statement": "Opening the same file name n times opens the underlying file once; it is closed exactly when the n-th handle is destroyed; a failed open leaves the manager usable.", "quantifier": "every sequence of opens and destructions over any set of names, including failures", "why_tests_cant": "Unbounded interleavings of handles and names.", "anchors": ["ecl_devices/src/lib/shared_file.cpp: SharedFileManager::RegisterSharedFile, DeRegisterSharedFile"]}
{"id": "C26", "title": "SharedFile output is complete", "statement": "Every byte written through a SharedFile handle reaches the file in order, at the latest when the handle is destroyed.", "quantifier": "every sequence of writes, flushes and destructions", "why_tests_cant": "Buffer fill level at destruction depends on the history.", "anchors": ["ecl_devices/src/lib/shared_file.cpp: SharedFile::write, flush, ~SharedFile", "ecl_devices/src/lib/detail/character_buffer.cpp: CharBuffer::append"]}
{"id": "C27", "title": "Serial read timeouts are honoured", "statement": "block(t) makes a read wait at least t milliseconds (rounded to the implementation step) before giving up, for every t the interface accepts.", "quantifier": "every timeout value", "why_tests_cant": "All timeouts; truncation appears beyond a byte-sized hardware limit.", "anchors": ["ecl_devices/src/lib/serial_pos.cpp: Serial::block, unblock", "ecl_devices/include/ecl/devices/serial_pos.hpp: Serial::read"]}
{"id": "C28", "title": "Socket read reports connection state", "statement": "SocketServer/SocketClient read returns a positive count for received bytes, and distinct negative codes for connection problems and disconnection, and never reports success on a closed connection.", "quantifier": "every result of the underlying system call and every connection state", "why_tests_cant": "All combinations of socket state and system call result.", "anchors": ["ecl_devices/src/lib/socket_server_pos.cpp: SocketServer::read, remaining, write", "ecl_devices/src/lib/socket_client_pos.cpp: SocketClient::read, remaining, write"]}
{"id": "C29", "title": "A signal reaches every connected slot exactly once", "statement": "Emitting a signal invokes each slot subscribed to one of the signal's topics exactly once per shared topic and no other slot.", "quantifier": "every history of connect, disconnect and destruction of signals and slots over any topics, then an emit", "why_tests_cant": "Connection graphs and histories are unbounded.", "anchors": ["ecl_sigslots/include/ecl/sigslots/sigslot.hpp: SigSlot::emit, connectSignal, connectSlot", "ecl_sigslots/include/ecl/sigslots/manager.hpp: SigSlotsManager", "ecl_sigslots/include/ecl/sigslots/topic.hpp: Topic"]}
{"id": "C30", "title": "Destroyed signals and slots leave no dangling connection", "statement": "After a signal or slot disconnects or is destroyed no topic refers to it any more, empty topics are removed, other connections are unaffected, and no invalid iterator is dereferenced.", "quantifier": "every history of connects and disconnects", "why_tests_cant": "Dangling pointers depend on histories; failure needs a slot both publishing and subscribing on one topic.", "anchors": ["ecl_sigslots/include/ecl/sigslots/manager.hpp: SigSlotsManager::disconnect", "ecl_sigslots/include/ecl/sigslots/sigslot.hpp: SigSlot::disconnect, ~SigSlot", "ecl_sigslots/include/ecl/sigslots/topic.hpp: Topic::disconnect"]}
{"id": "C31", "title": "Signal and slot handles share one endpoint", "statement": "Copies of a Signal or Slot share the endpoint; the endpoint is destroyed exactly once, when the last copy goes away.", "quantifier": "every history of construction, copy, assignment and destruction of handles", "why_tests_cant": "All histories of copies and assignments.", "anchors": ["ecl_sigslots/include/ecl/sigslots/signal.hpp: Signal(const Signal&), operator=, ~Signal", "ecl_sigslots/include/ecl/sigslots/slot.hpp: Slot(const Slot&), operator=, ~Slot"]}
{"id": "C32", "title": "Semaphore behaves as a binary semaphore", "statement": "The semaphore's count stays in {0,1} under any use by any number of processes, so at most one holder is inside at any time; trylock never blocks.", "quantifier": "every interleaving of lock, trylock, unlock by any number of processes", "why_tests_cant": "Concurrency interleavings.", "anchors": ["ecl_ipc/src/lib/semaphore_pos.cpp: Semaphore::lock, trylock, unlock"]}
{"id": "C33", "title": "Timed semaphore trylock waits for the requested time", "statement": "trylock(d) gives up exactly d after the current time: the absolute deadline passed to the system is a valid timespec equal to now+d.", "quantifier": "every current time and duration", "why_tests_cant": "The nanosecond carry is wrong at a single value.", "anchors": ["ecl_ipc/src/lib/semaphore_pos.cpp: Semaphore::trylock(Duration)"]}
{"id": "C34", "title": "Mutex trylock with timeout", "statement": "Mutex::trylock(d) returns true only if the calling thread acquired the mutex, and waits up to d before returning false.", "quantifier": "every duration, mutex state and build mode", "why_tests_cant": "All states and error codes; the timeout is interpreted relative to the epoch.", "anchors": ["ecl_threads/src/lib/mutex_pos.cpp: Mutex::lock, trylock, unlock"]}
{"id": "C35", "title": "Thread life cycle", "statement": "A Thread object starts at most one thread, isRunning() is true exactly while the thread runs, join waits for it, and cancel/join/destroy release resources exactly once in any order.", "quantifier": "every sequence of start, finish, cancel, join, destroy", "why_tests_cant": "All orders of the calls relative to thread completion.", "anchors": ["ecl_threads/include/ecl/threads/thread_pos.hpp: Thread, ThreadTask::EntryPoint", "ecl_threads/src/lib/thread_pos.cpp: Thread::start, cancel, join, ~Thread"]}
{"id": "C36", "title": "Thread priorities read back", "statement": "After set_priority(p) succeeds get_priority() returns p, for every settable priority level and every real time priority range the system may provide.", "quantifier": "every priority level, every system range", "why_tests_cant": "The system's priority range is a parameter.", "anchors": ["ecl_threads/src/lib/priority_pos.cpp: set_priority, get_priority"]}
{"id": "C37", "title": "Exceptions keep their trace, flag and message", "statement": "Rethrowing a StandardException through any number of levels preserves the original error flag and detailed message and lists every location from outermost to innermost.", "quantifier": "every nesting depth, every location and message text", "why_tests_cant": "Unbounded nesting.", "anchors": ["ecl_exceptions/src/lib/standard_exception.cpp: StandardException", "ecl_exceptions/include/ecl/exceptions/data_exception.hpp: DataException"]}
{"id": "C38", "title": "Flags is a set of bits", "statement": "Flags |, &, ^, ~ and testFlag behave as union, intersection, symmetric difference, complement and membership on bit sets.", "quantifier": "every pair of flag values", "why_tests_cant": "2^64 pairs.", "anchors": ["ecl_utilities/include/ecl/utilities/flags.hpp: Flags"]}
{"id": "C39", "title": "Sign functions and approximate comparison", "statement": "sign(x) is -1, 0, 1; psign and nsign never return 0; isApprox is symmetric, reflexive, scale invariant, and precision 0 means equality.", "quantifier": "every pair of numbers and precision", "why_tests_cant": "Infinite domain.", "anchors": ["ecl_math/include/ecl/math/simple.hpp: sign, psign, nsign", "ecl_math/include/ecl/math/fuzzy.hpp: isApprox, isApproxOrLessThan"]}
{"id": "C40", "title": "Integer formatting preserves the number and pads to width", "statement": "A formatted integer is the number's numeral in the chosen base padded with spaces to at least the chosen width, on the side chosen by the alignment; stripping the spaces gives the numeral back.", "quantifier": "every integer, width, alignment and base", "why_tests_cant": "All values and widths.", "anchors": ["ecl_formatters/include/ecl/formatters/number.hpp: FormatNumber::formatDec, formatHex, formatBin, prePad, postPad"]}
{"id": "C41", "title": "Temporary format settings last for one use", "statement": "A format call with temporary parameters affects only the next streamed item; afterwards the permanent settings apply; streaming without a ready item is rejected in debug builds.", "quantifier": "every sequence of format calls", "why_tests_cant": "Call sequences are unbounded.", "anchors": ["ecl_formatters/include/ecl/formatters/number.hpp: FormatNumber::operator(), operator<<", "ecl_formatters/include/ecl/formatters/floats.hpp: operator()"]}
{"id": "C42", "title": "Decimal integers read from a stream are exact", "statement": "Reading an integer from a text stream yields exactly the decimal value of the digits in the input, or reports an error if it does not fit the type; every value of the type can be read.", "quantifier": "every integral type, every digit string and every following text", "why_tests_cant": "All digit strings and all types.", "anchors": ["ecl_streams/include/ecl/streams/text_streams/input_text_stream.hpp: getIntegerFromStream, skipLeadingWhiteSpace"]}
{"id": "C43", "title": "Hexadecimal integers read from a stream are exact", "statement": "Reading text of the form 0xH..H into an integer yields the hexadecimal value or an error if it does not fit the type.", "quantifier": "every integral type and hex digit string", "why_tests_cant": "All digit strings and types.", "anchors": ["ecl_streams/include/ecl/streams/text_streams/input_text_stream.hpp: parseHexInteger"]}
{"id": "C44", "title": "Streamed integers read back", "statement": "Writing a list of integers separated by spaces to a text stream and reading them back gives the same list.", "quantifier": "every list of integers of any integral type", "why_tests_cant": "Unbounded lists, all values.", "anchors": ["ecl_streams/include/ecl/streams/text_streams/output_text_stream.hpp: operator<<", "ecl_streams/include/ecl/streams/text_streams/input_text_stream.hpp: operator>>"]}
{"id": "C45", "title": "Words and booleans read from a stream", "statement": "Reading strings from a text stream returns the maximal runs of characters other than space and newline, in order, consuming one terminator; booleans accept exactly true/TRUE/True/false/FALSE/False.", "quantifier": "every input text", "why_tests_cant": "All texts.", "anchors": ["ecl_streams/include/ecl/streams/text_streams/input_text_stream.hpp: operator>>(std::string&), operator>>(bool&)"]}
{"id": "C46", "title": "Decimal fractions read from a stream", "statement": "Reading a float from text of the form [-+]digits[.digits] yields the value denoted, whatever follows the number including end of input.", "quantifier": "every digit string and every continuation", "why_tests_cant": "All digit strings, and the end of input position.", "anchors": ["ecl_streams/include/ecl/streams/text_streams/input_text_stream.hpp: getFloatFromStream"]}
{"id": "C47", "title": "Log stream filters by mode", "statement": "Text logged with LOG(stream,mode) reaches the device exactly when the mode is enabled, prefixed by the mode's header; logging never changes which modes are enabled.", "quantifier": "every history of enableMode, disableMode and log calls", "why_tests_cant": "Unbounded histories.", "anchors": ["ecl_streams/src/lib/log_stream.cpp: LogStream::log, enableMode, disableMode, isModeEnabled", "ecl_streams/include/ecl/streams/log_stream.hpp: LOG"]}
{"id": "C48", "title": "Command line values reach the right argument", "statement": "For a command line whose every token is a flag/name of a declared value argument followed by its value, parse assigns each value to the argument named, and other arguments keep their defaults; duplicates, unknown flags and missing values are rejected.", "quantifier": "every declared argument set and every argv", "why_tests_cant": "All argument vectors and declarations.", "anchors": ["ecl_command_line/include/ecl/command_line/cmd_line.hpp: CmdLine::parse, add", "ecl_command_line/include/ecl/command_line/value_arg.hpp: ValueArg::processArg", "ecl_command_line/include/ecl/command_line/arg.hpp: Arg::argMatches, trimFlag"]}
{"id": "C49", "title": "Required and exclusive arguments are enforced", "statement": "parse succeeds only if every required argument was given, and exactly one argument of every exclusive (xor) group was given.", "quantifier": "every declared argument set and argv", "why_tests_cant": "All argument vectors and groups.", "anchors": ["ecl_command_line/include/ecl/command_line/cmd_line.hpp: CmdLine::parse, xorAdd", "ecl_command_line/include/ecl/command_line/xor_handler.hpp: XorHandler::check"]}
{"id": "C50", "title": "Combined switches equal separate switches", "statement": "Giving switches combined (-abc) has the same effect as giving them separately (-a -b -c), and switch characters inside another argument's value never toggle a switch.", "quantifier": "every set of switches and every combination", "why_tests_cant": "All combinations and orders of declaration.", "anchors": ["ecl_command_line/include/ecl/command_line/switch_arg.hpp: SwitchArg::combinedSwitchesMatch, processArg", "ecl_command_line/include/ecl/command_line/multi_switch_arg.hpp: MultiSwitchArg::processArg", "ecl_command_line/include/ecl/command_line/cmd_line.hpp: _emptyCombined"]}
{"id": "C51", "title": "wrap_angle normalises angles", "statement": "wrap_angle(a) lies in [-pi,pi] and differs from a by an integer multiple of 2*pi; angles already in range are unchanged.", "quantifier": "every real angle", "why_tests_cant": "Infinite domain.", "anchors": ["ecl_geometry/src/lib/angle.cpp: wrap_angle", "ecl_geometry/include/ecl/geometry/angle.hpp: Angle"]}
{"id": "C52", "title": "Polynomials evaluate, differentiate and shift exactly", "statement": "For a polynomial of any degree N: operator() is the value of sum c_i x^i, derivative() and dderivative() are its derivatives, and shift_horizontal(s) replaces p(x) by p(x-s).", "quantifier": "every degree, coefficients, argument and shift", "why_tests_cant": "All degrees and real coefficients.", "anchors": ["ecl_geometry/include/ecl/geometry/polynomial.hpp: Polynomial::operator(), derivative, dderivative, shift_horizontal", "ecl_geometry/include/ecl/geometry/pascals_triangle.hpp: PascalsTriangle"]}
{"id": "C53", "title": "Polynomial interpolations meet their end conditions", "statement": "LinearInterpolation, PointSlopeForm, CubicDerivativeInterpolation, CubicSecondDerivativeInterpolation and QuinticInterpolation produce polynomials with the requested values and derivatives at both ends.", "quantifier": "every pair of distinct end points and all end conditions", "why_tests_cant": "Infinite domain.", "anchors": ["ecl_geometry/src/lib/polynomial_blueprints.cpp: LinearInterpolation::apply, CubicDerivativeInterpolation::apply, CubicSecondDerivativeInterpolation::apply, QuinticInterpolation::apply"]}
{"id": "C54", "title": "Polynomial roots and synthetic division", "statement": "Roots returns exactly the real roots of a linear, quadratic or cubic polynomial; Division(p,f) returns q and r with p(x)=(x-f)q(x)+r.", "quantifier": "every polynomial", "why_tests_cant": "Infinite domain; exceptional branches have measure zero.", "anchors": ["ecl_geometry/src/lib/polynomial.cpp: Roots<LinearFunction>, Roots<QuadraticPolynomial>, Roots<CubicPolynomial>, Division"]}
{"id": "C55", "title": "Extrema of a cubic on an interval", "statement": "Maximum/Minimum<CubicPolynomial>(a,b,p) are the greatest/least value of p on [a,b].", "quantifier": "every cubic and interval", "why_tests_cant": "Infinite domain.", "anchors": ["ecl_geometry/src/lib/polynomial.cpp: Maximum<CubicPolynomial>, Minimum<CubicPolynomial>, Maximum<LinearFunction>, Minimum<LinearFunction>"]}
{"id": "C56", "title": "Cubic splines interpolate and are twice continuously differentiable", "statement": "Natural and clamped cubic splines pass through every data point, have continuous first and second derivatives at the knots, and satisfy the end conditions.", "quantifier": "every number of knots >=2, every strictly increasing knot set, all values", "why_tests_cant": "Unbounded number of knots.", "anchors": ["ecl_geometry/src/lib/cubic_spline_blueprints.cpp: C2CubicSpline::C2CubicSpline, apply", "ecl_geometry/src/lib/cubic_spline.cpp: CubicSpline::operator(), derivative, dderivative"]}
{"id": "C57", "title": "Heuristic cubic splines interpolate with continuous slope", "statement": "DerivativeHeuristicCubicSpline passes through every data point with a continuous first derivative and the requested end slopes.", "quantifier": "every number of knots, every strictly increasing knot set, all values", "why_tests_cant": "Unbounded number of knots.", "anchors": ["ecl_geometry/src/lib/cubic_spline_blueprints.cpp: DerivativeHeuristicCubicSpline"]}
{"id": "C58", "title": "Tension splines interpolate and are twice continuously differentiable", "statement": "The tension spline passes through every data point, has continuous first and second derivatives, and zero second derivative at the ends.", "quantifier": "every number of knots, strictly increasing knots, values, positive tension", "why_tests_cant": "Unbounded number of knots.", "anchors": ["ecl_geometry/src/lib/tension_spline_blueprints.cpp: C2TensionSpline", "ecl_geometry/src/lib/tension_function.cpp: TensionFunction", "ecl_geometry/src/lib/tension_spline.cpp: TensionSpline"]}
{"id": "C59", "title": "Smooth linear splines respect the acceleration bound", "statement": "A SmoothLinearSpline that is constructed successfully is continuous with continuous first and second derivatives and its second derivative never exceeds the bound in magnitude.", "quantifier": "every waypoint set and bound", "why_tests_cant": "Unbounded number of waypoints.", "anchors": ["ecl_geometry/src/lib/smooth_linear_spline.cpp: SmoothLinearSpline"]}
{"id": "C60", "title": "Distance to a segment and to a path", "statement": "squaredDistanceFromPoint is the minimum squared distance from the point to the points of the segment; distance(position, trajectory) is the minimum distance to the polyline.", "quantifier": "every segment, point and trajectory", "why_tests_cant": "Infinite domain, unbounded trajectories.", "anchors": ["ecl_geometry/src/lib/linear_segment.cpp: LinearSegment::squaredDistanceFromPoint", "ecl_geometry/src/lib/odometry_helper.cpp: distance"]}
{"id": "C61", "title": "A segment's line equation contains its end points", "statement": "For the coefficients A,B,C exposed by LinearSegment, A*x+B*y+C=0 holds at both end points.", "quantifier": "every segment", "why_tests_cant": "Infinite domain; the vertical case is special.", "anchors": ["ecl_geometry/src/lib/linear_segment.cpp: LinearSegment::LinearSegment"]}
{"id": "C62", "title": "Planar poses compose like rigid motions", "statement": "Pose composition is associative, has an identity, inverse() is a two-sided inverse, relative() recovers the increment, and extend_pose agrees with concatenate_poses; headings add modulo 2*pi.", "quantifier": "every pose", "why_tests_cant": "Infinite domain.", "anchors": ["ecl_geometry/include/ecl/geometry/pose2d.hpp: concatenate_poses, extend_pose", "ecl_geometry/include/ecl/geometry/legacy_pose2d.hpp: LegacyPose2D", "ecl_geometry/include/ecl/geometry/legacy_pose3d.hpp: LegacyPose3D"]}
{"id": "C63", "title": "Differential drive kinematics are consistent", "statement": "baseToWheelVelocities inverts the wheel to base relation: feeding its rates to poseUpdateFromWheelDifferential gives back the commanded linear and (wrapped) angular motion.", "quantifier": "every geometry and command", "why_tests_cant": "Infinite domain.", "anchors": ["ecl_mobile_robot/src/lib/differential_drive.cpp: DifferentialDriveKinematics"]}
{"id": "C64", "title": "Appending trajectories", "statement": "addAtEnd(target, addition) makes target the concatenation of the old target and the addition; vectorToTrajectory preserves order and length.", "quantifier": "every pair of trajectories", "why_tests_cant": "Unbounded lengths.", "anchors": ["ecl_geometry/src/lib/odometry_helper.cpp: addAtEnd, vectorToTrajectory, setAt, getAt"]}
{"id": "C65", "title": "Cumulative statistics are exact", "statement": "After pushing any data set, size, mean and variance equal the count, arithmetic mean and unbiased sample variance of the values pushed since the last clear.", "quantifier": "every sequence of push_back and clear", "why_tests_cant": "Unbounded data sets.", "anchors": ["ecl_statistics/include/ecl/statistics/cumulative_statistics.hpp: CumulativeStatistics"]}
{"id": "C66", "title": "Covariance ellipse axes and lengths", "statement": "For a symmetric positive definite 2x2 covariance matrix the lengths are the square roots of its eigenvalues in decreasing order and the axes are corresponding orthonormal eigenvectors.", "quantifier": "every symmetric positive definite 2x2 matrix", "why_tests_cant": "Infinite domain; diagonal matrices take a separate branch.", "anchors": ["ecl_statistics/src/lib/covariance_ellipsoid.cpp: CovarianceEllipsoid<double,2>::compute"]}
{"id": "C67", "title": "Pascal's triangle holds binomial coefficients", "statement": "Row i, entry k of PascalsTriangle<N> is the binomial coefficient (i+k choose k), for the generic and the specialised sizes.", "quantifier": "every N, row and entry", "why_tests_cant": "All sizes.", "anchors": ["ecl_geometry/include/ecl/geometry/pascals_triangle.hpp: PascalsTriangle", "ecl_geometry/src/lib/pascals_triangle.cpp: PascalsTriangle<3>, PascalsTriangle<5>"]}
{"id": "C68", "title": "Frequency monitor counts and bounds events", "statement": "After any sequence of updates FrequencyMonitor reports the number of events of the last window divided by the window, and min/max intervals that bound every interval of that window.", "quantifier": "every sequence of event times", "why_tests_cant": "Unbounded sequences.", "anchors": ["ecl_time/src/lib/frequency.cpp: FrequencyMonitor::update, analyse"]}
{"id": "C69", "title": "Trajectory segment durations respect nominal rates", "statement": "After initialiseWaypointDurations succeeds every segment is long enough for every joint to reach the next waypoint at its nominal rate, durations are never shortened, and zero length segments are rejected.", "quantifier": "every number of waypoints and joints", "why_tests_cant": "Unbounded numbers of waypoints and joints.", "anchors": ["ecl_manipulators/src/lib/trajectory.cpp: Trajectory::validateWaypoints, initialiseWaypointDurations, updateDuration"]}
{"id": "C70", "title": "Console input delivers bytes in order", "statement": "Reading from the console device delivers the bytes of standard input one by one, in order and unchanged, and signals the end of input by a non-positive count.", "quantifier": "every input, byte for byte", "why_tests_cant": "All byte values and all inputs, including bytes that look like markers.", "anchors": ["ecl_devices/src/lib/console.cpp: IConsole::read"]}
{"id": "C71", "title": "File write modes", "statement": "A file opened with mode New and written holds exactly the bytes written; with mode Append the old contents followed by the bytes written.", "quantifier": "every old content and every sequence of writes", "why_tests_cant": "All combinations of old contents and writes.", "anchors": ["ecl_devices/src/lib/ofile_pos.cpp: OFile::open, write, close", "ecl_devices/include/ecl/devices/modes.hpp: WriteMode"]}
{"id": "C72", "title": "The same system error gives the same error flag with and without exceptions", "statement": "For every errno the error flag carried by the exception thrown is the one stored as error code when exceptions are disabled or in release builds.", "quantifier": "every errno and every device call", "why_tests_cant": "All error numbers; failing system calls are hard to provoke.", "anchors": ["ecl_devices/src/lib/detail/exception_handler_pos.cpp", "ecl_devices/src/lib/detail/error_handler.cpp", "ecl_devices/src/lib/detail/socket_exception_handler_pos.cpp", "ecl_devices/include/ecl/devices/detail/socket_error_handler_pos.hpp"]}
{"id": "C73", "title": "Mutex mutual exclusion and lock count", "statement": "At most one thread owns a Mutex; trylock succeeds exactly when it is free; lock waits for it; locks() reports the number of locks held; misuse (relocking, unlocking a mutex of another thread) is reported in debug builds.", "quantifier": "every interleaving of lock, trylock and unlock by any number of threads", "why_tests_cant": "Interleavings are unbounded; misuse is undefined behaviour in release builds.", "anchors": ["ecl_threads/src/lib/mutex_pos.cpp: Mutex::lock, trylock, unlock", "ecl_threads/include/ecl/threads/mutex_pos.hpp: Mutex::locks"]}
{"id": "C74", "title": "Threadable runs one thread at a time", "statement": "Threadable::start starts runnable() unless it is already running and says whether it did; isRunning() is true exactly while runnable() executes.", "quantifier": "every interleaving of start calls and thread ends", "why_tests_cant": "Races between callers; failures of thread creation.", "anchors": ["ecl_threads/include/ecl/threads/threadable.hpp: Threadable::start, isRunning, executeThreadFunction"]}
{"id": "C75", "title": "Floating point formatting", "statement": "A formatted floating point number is its fixed point text with the chosen number of decimals, padded with spaces to at least the chosen width on the side chosen by the alignment.", "quantifier": "every number, precision, width and alignment", "why_tests_cant": "All values; buffer limits.", "anchors": ["ecl_formatters/include/ecl/formatters/floats.hpp: FormatFloat::formatFixed, formatSci, prePad, postPad"]}
{"id": "C76", "title": "String formatting", "statement": "A formatted string is the string, unchanged, padded with spaces to at least the chosen width on the side chosen by the alignment.", "quantifier": "every string, width and alignment", "why_tests_cant": "All strings and widths.", "anchors": ["ecl_formatters/include/ecl/formatters/strings.hpp: Format<std::string>::format, prePad, postPad", "ecl_formatters/src/lib/strings.cpp"]}
{"id": "C77", "title": "Cube root and Euclidean norms", "statement": "cube_root(x) is the real number whose cube is x, also for negative x; the norms are the Euclidean lengths of the vectors of their arguments.", "quantifier": "every real argument (exact arithmetic)", "why_tests_cant": "Infinite domain.", "anchors": ["ecl_math/include/ecl/math/simple.hpp: cube_root", "ecl_math/include/ecl/math/norms.hpp: euclidean_norm, EuclideanNorm"]}
{"id": "C78", "title": "Intersection of two lines", "statement": "Intersection<LinearFunction>(f,g) returns the point that lies on both graphs, and reports an error exactly when there is no single such point; fail() tells whether the last call was refused.", "quantifier": "every pair of linear functions (exact arithmetic)", "why_tests_cant": "Infinite domain.", "anchors": ["ecl_geometry/src/lib/polynomial.cpp: Intersection<LinearFunction>", "ecl_math/include/ecl/math/fuzzy.hpp: isApprox"]}
{"id": "C79", "title": "Spatial poses have the rotation and translation they are built from", "statement": "A LegacyPose3D built from a rotation (matrix, quaternion or angle and axis) and a translation has that rotation and that translation.", "quantifier": "every rotation and translation", "why_tests_cant": "Infinite domain.", "anchors": ["ecl_geometry/include/ecl/geometry/legacy_pose3d.hpp: LegacyPose3D constructors"]}
{"id": "C80", "title": "Intercepts of a covariance ellipse", "statement": "intercepts() returns the distances from the centre to the boundary of the covariance ellipse along the x and the y axis.", "quantifier": "every symmetric positive definite 2x2 matrix (exact arithmetic)", "why_tests_cant": "Infinite domain.", "anchors": ["ecl_statistics/src/lib/covariance_ellipsoid.cpp: CovarianceEllipsoid<T,2>::intercepts, rotation"]}
{"id": "C81", "title": "Comparison of waypoints", "statement": "WayPoint == tells whether all joint angles are equal and is an equivalence relation, != is its negation, approx tells whether all angles agree within epsilon.", "quantifier": "every pair of waypoints", "why_tests_cant": "Infinite domain.", "anchors": ["ecl_manipulators/include/ecl/manipulators/waypoint.hpp: WayPoint<JointAngles>::operator==, operator!=, approx, redimension"]}
{"id": "C82", "title": "Smoothed linear trajectories", "statement": "linearSplineInterpolation returns a trajectory that is twice continuously differentiable in every joint, starts at the first waypoint with the rate and ends at the last waypoint with the rate configured there, without acceleration at the ends and never beyond a joint's maximum acceleration; unusable waypoints are refused in every build.", "quantifier": "every list of waypoints of the trajectory's dimension, every list of maximum accelerations, every time and joint (exact arithmetic)", "why_tests_cant": "Infinite domain; the stretching loop has no bound.", "anchors": ["ecl_manipulators/src/lib/trajectory.cpp: Trajectory<JointAngles>::linearSplineInterpolation, generateLinearSplines, initialiseWaypointDurations, operator(), derivative, dderivative"]}
{"id": "C83", "title": "Tension spline trajectories", "statement": "tensionSplineInterpolation returns a trajectory that starts at the first waypoint and ends at the last one with the rates configured there and without acceleration, passes through all waypoints in between in order, is continuous with its first two derivatives in every joint, and never exceeds a joint's maximum acceleration; unusable waypoints are refused in every build.", "quantifier": "every list of waypoints of the trajectory's dimension, every list of maximum accelerations, every positive tension, every time and joint (exact arithmetic)", "why_tests_cant": "Infinite domain; three stretching loops without bound.", "anchors": ["ecl_manipulators/src/lib/trajectory.cpp: Trajectory<JointAngles>::tensionSplineInterpolation, generateTensionSplines, operator(), derivative, dderivative", "ecl_geometry/include/ecl/geometry/spline_function.hpp: SplineFunction"]}
{"id": "C84", "title": "Shared memory handles of one name share one storage", "statement": "All SharedMemory handles constructed with the same identifier, in whatever process, refer to the same storage: what is stored through one is read through all others, and each byte reads as the last value stored, or as the default constructed Storage if nothing was stored; a constructor that attaches leaves the contents alone; the storage has exactly one creator and its name disappears with it; a failed constructor leaves no resources, does not harm the other handles and reports the error of the call that failed.", "quantifier": "every number of handles and processes, every interleaving of their system calls, every store, every crash point, every failing system call, every storage type", "why_tests_cant": "Interleavings of system calls of several processes, crash points and failures of system calls.", "anchors": ["ecl_ipc/include/ecl/ipc/shared_memory_pos.hpp: SharedMemory", "ecl_ipc/src/lib/shared_memory_pos.cpp: SharedMemoryBase::open, unlink, openSharedSectionException, memoryMapException"]}
{"id": "C85", "title": "Floating point numbers and booleans as text", "statement": "Converting a floating point number to text in a character buffer returns the decimal numeral nearest to the number with the requested number of decimals (six by default), terminated, whatever was converted before with the same converter, and reports a buffer that is too small; converting a boolean returns true or false. Nothing outside the buffer, and nothing behind the terminator, is written.", "quantifier": "every finite number, every precision, every buffer, every sequence of conversions with one converter", "why_tests_cant": "Infinite domain; depends on the format left behind by the previous conversions.", "anchors": ["ecl_converters/include/ecl/converters/char_strings.hpp: Converter<char*,float>, Converter<char*,double>, Converter<char*,bool>"]}
{"id": "C86", "title": "Resolving a path", "statement": "realpath stores the resolution of the path the system gives and returns no error; when the path cannot be resolved it returns the error for the reason, leaves the caller's string as it was, and in neither case keeps memory.", "quantifier": "every path, every answer and every errno of the system, every sequence of calls", "why_tests_cant": "Depends on every way the system can fail and on what it leaves in the buffer then.", "anchors": ["ecl_filesystem/src/lib/realpath.cpp: realpath"]}
{"id": "C87", "title": "Timestamps from and to double, statistics of durations", "statement": "A timestamp made from a number of seconds is normalised and less than a nanosecond away from it, and negative numbers are refused in debug builds; the number of seconds of a timestamp is right up to the precision of double, and making a timestamp from it gives the same timestamp. TimeData returns the average, variance and standard deviation of the durations added since the last clear, to within a nanosecond.", "quantifier": "every double, every timestamp, every rounding to nearest, every list of durations and calls", "why_tests_cant": "Infinite domain; rounding errors for almost all values.", "anchors": ["ecl_time/src/lib/timestamp_base.cpp: TimeStampBase::TimeStampBase(double), stamp(double)", "ecl_time/include/ecl/time/timestamp_base.hpp: operator double", "ecl_time/src/lib/time_data.cpp: TimeData"]}
{"id": "C88", "title": "Random numbers", "statement": "uniform() returns numbers between 0 and 1 and uniform(r) numbers between -r and r; gaussian returns numbers, two in a row being a point of the unit disc mapped by the polar method, scaled by the deviation and moved by the mean; a generator constructed with a seed always gives the same numbers, and different generators do not influence each other; this holds for every arithmetic type.", "quantifier": "every seed, every sequence of calls on any number of generators, every sequence of numbers rand can give, every rounding to nearest", "why_tests_cant": "Unbounded histories of a program; the failing draws are rare.", "anchors": ["ecl_time/include/ecl/time/random_number_generator.hpp: RandomNumberGenerator"]}
{"id": "C89", "title": "Points", "statement": "Two dimensional points form a vector space under +, - and *; == and != compare the coordinates; distance is a metric; rotate keeps distances, adds up and adds to the angle of a point; Normalize returns the length, leaves a point of length 1 in the same direction and turns the origin into (1,0). All this holds for the integer points too. An index out of range is refused. The fourth coordinate of a homogeneous point is always 1.", "quantifier": "every pair and triple of points, every angle, index, build mode and history of setters", "why_tests_cant": "Real and unbounded integer domains; the integer failures are silent.", "anchors": ["ecl_geometry/include/ecl/geometry/cartesian_point.hpp: CartesianPoint", "ecl_geometry/include/ecl/geometry/homogeneous_point.hpp: HomogeneousPointBase"]}
{"id": "C90", "title": "Help texts", "statement": "The usage a program prints names every argument once, in the form the parser accepts, the optional ones in brackets and the exclusive ones in braces; texts are broken into lines of at most 75 characters between words, and nothing is lost. The DocBook output is the same information with special characters escaped and an OR between alternatives.", "quantifier": "every program name, list of arguments and groups, and every text", "why_tests_cant": "Unbounded texts; the read before the beginning of a text shows no symptom.", "anchors": ["ecl_command_line/include/ecl/command_line/std_output.hpp: StdOutput::usage, spacePrint", "ecl_command_line/include/ecl/command_line/docbook_output.hpp: DocBookOutput", "ecl_command_line/include/ecl/command_line/arg.hpp: Arg::shortID, longID"]}
{"id": "C91", "title": "Interpolation between frames", "statement": "An interpolator between two frames starts at the first, ends at the second and moves with constant velocity; the sliding one moves the origin on a straight line; the planar one stays in the plane of the first frame and refuses frames that cannot be reached in it.", "quantifier": "every pair of frames and every time", "why_tests_cant": "Two real frames and a real time; whether a tilt is refused shows only for tilted frames.", "anchors": ["ecl_linear_algebra/include/ecl/linear_algebra/sophus/interpolators.hpp: Interpolator, SlidingInterpolator, PlanarInterpolator", "ecl_linear_algebra/src/lib/sophus_interpolators.cpp"]}
{"id": "C92", "title": "Conversions of frames", "statement": "Converting a planar pose into a frame of space and back gives the same pose with the heading in (-pi, pi]; composition of poses is composition of frames; the frame of a line has its start as origin and its end on the x axis; the quaternion of a planar rotation rotates as it does; a yaw survives the conversion into a quaternion and back, and a quaternion that is no yaw is refused.", "quantifier": "every pose, frame, line, angle and quaternion", "why_tests_cant": "Real arguments of unbounded range; wrapped headings and the sign of a quaternion.", "anchors": ["ecl_linear_algebra/src/lib/sophus_helpers.cpp: toPose2D, toPose3D, points2DToSophusTransform", "ecl_linear_algebra/include/ecl/linear_algebra/sophus/helpers.hpp: PlanarRotation2Quaternion", "ecl_core_apps/src/utils/quaternion2yaw.cpp", "ecl_core_apps/src/utils/yaw2quaternion.cpp"]}
{"id": "C93", "title": "Slots that change connections", "statement": "While a signal is being delivered, the functions of the slots may construct, connect, disconnect and destroy signals and slots and emit themselves: the delivery stays defined, calls only endpoints that are subscribed at that moment, none twice for a topic, and misses none that was subscribed all the time.", "quantifier": "every legal history, every behaviour of the slots, every order of addresses, every number of steps", "why_tests_cant": "The set that is being iterated changes; an invalid iterator often still works, and the order of addresses differs from run to run.", "anchors": ["ecl_sigslots/include/ecl/sigslots/sigslot.hpp: SigSlot::emit, process, disconnect, ~SigSlot", "ecl_sigslots/include/ecl/sigslots/topic.hpp: Topic", "ecl_sigslots/include/ecl/sigslots/manager.hpp: SigSlotsManager"]}
{"id": "C94", "title": "Destroying a slot while another thread calls it", "statement": "The destructor of a slot waits until the functions that other threads run in it have returned: it never takes the slot away from under a running function, and it gets through when nobody is inside.", "quantifier": "every schedule of any number of calling threads, nested calls included, and the destroying thread", "why_tests_cant": "Needs a thread to be stopped between two machine instructions while others go on.", "anchors": ["ecl_sigslots/include/ecl/sigslots/sigslot.hpp: SigSlot::process, ~SigSlot", "ecl_threads/src/lib/mutex_pos.cpp: Mutex::trylock, unlock, lock"]}
{"id": "C95", "title": "Mutual exclusion on Windows", "statement": "The Windows mutex is held by one thread at a time in any interleaving; only the thread that holds it may unlock it; trylock takes a free mutex and refuses a taken one without waiting.", "quantifier": "any number of threads and every interleaving of the steps of lock, trylock and unlock", "why_tests_cant": "Needs particular interleavings between two instructions of trylock.", "anchors": ["ecl_threads/src/lib/mutex_w32.cpp: Mutex::lock, trylock, unlock", "ecl_threads/include/ecl/threads/mutex_w32.hpp: Mutex"]}
{"id": "C96", "title": "Threads and priorities on Windows", "statement": "A priority that is set reads back; a thread started with a priority runs at it; isRunning tells whether the thread is running; cancel is safe at any time; every function object is deleted once and not under a running thread.", "quantifier": "all priority levels, both build modes, all histories of start, join, cancel and ends of threads", "why_tests_cant": "There is no Windows build in the tests and priorities depend on the rights of the process.", "anchors": ["ecl_threads/src/lib/thread_win.cpp: Thread::start, cancel, join", "ecl_threads/include/ecl/threads/thread_win.hpp: Thread, ThreadTask", "ecl_threads/src/lib/priority_win.cpp: set_priority, get_priority"]}
{"id": "C97", "title": "Files on Windows", "statement": "A file that is opened, written to and closed holds the bytes that were written, after the old contents in append mode and in place of them otherwise.", "quantifier": "every old content, mode and sequence of writes", "why_tests_cant": "The translation of line ends depends on the bytes, and the rest of an old file on the lengths.", "anchors": ["ecl_devices/src/lib/ofile_w32.cpp: OFile::open, write, close"]}
{"id": "C98", "title": "Serial ports on Windows", "statement": "A serial port can be opened, read, closed and opened again; reads return what came in, in order; close returns.", "quantifier": "every history of calls, of bytes that come in and of steps of the receiving thread", "why_tests_cant": "Depends on the order of the steps of two threads and on when bytes come in.", "anchors": ["ecl_devices/src/lib/serial_w32.cpp: Serial::open, close, read, event_proc", "ecl_devices/include/ecl/devices/serial_w32.hpp: Serial"]}
{"id": "C99", "title": "Clocks, stop watches and sleeping on Windows", "statement": "A new time stamp is the time of the clock; a stop watch tells the time since its last restart and between splits; a sleeper asks for the duration it was given.", "quantifier": "every clock count, every history of calls on a watch and on a sleeper, all 32 bit durations", "why_tests_cant": "Failures need durations of more than four seconds in microseconds and a Windows build.", "anchors": ["ecl_time/src/lib/timestamp_win.cpp: TimeStamp, stamp", "ecl_time/src/lib/stopwatch.cpp: StopWatch", "ecl_time/src/lib/sleep_win.cpp: Sleep, MilliSleep, MicroSleep, NanoSleep"]}
{"id": "C100", "title": "What function objects copy and what they refer to", "statement": "A function object with an argument bound by value, and one that copies a functor, do not depend on the originals any more; one that was bound to a reference or to an object acts on it as a direct call would; every function object that can be made can be called.", "quantifier": "every history of variables that come, change and go, and of function objects that are made and called", "why_tests_cant": "Depends on the lifetimes of the originals between the making and each call.", "anchors": ["ecl_utilities/include/ecl/utilities/function_objects.hpp: generateFunctionObject, Bound*, NullaryFunctionCopy, NullaryFunctionReference", "ecl_utilities/include/ecl/utilities/references.hpp: ReferenceWrapper, ref"]}
{"id": "C101", "title": "Containers of floating point numbers are shown as asked for", "statement": "A formatter of containers shows each container it is given in brackets, the numbers with the precision asked for and right aligned in the width asked for; without a width all numbers of a container get the same width; temporary settings hold for one container and the permanent ones hold again afterwards; streaming without a container is an error.", "quantifier": "every sequence of settings, containers and streamings, all containers, all numbers", "why_tests_cant": "The state of the formatter and the widths of all numbers together decide about the output.", "anchors": ["ecl_containers/include/ecl/containers/common/formatters.hpp: FloatContainerFormatter", "ecl_containers/include/ecl/containers/array/formatters.hpp: ArrayFormatter<float,N>, ArrayFormatter<double,N>"]}
{"id": "C102", "title": "Matrices and bytes are shown as asked for", "statement": "A formatter of matrices shows every matrix row by row in the width and precision asked for; temporary settings hold for one matrix, in any order with calls that change the permanent ones. A formatter of bytes shows the bytes given last in hexadecimal. Streaming without having given anything is an error.", "quantifier": "every sequence of settings, matrices or bytes, and streamings", "why_tests_cant": "Settings come from earlier calls in any order.", "anchors": ["ecl_linear_algebra/include/ecl/linear_algebra/eigen/formatters.hpp: FloatMatrixFormatter", "ecl_containers/include/ecl/containers/array/formatters.hpp: ByteArrayFormatter", "ecl_containers/include/ecl/containers/push_and_pop/formatters.hpp: BytePushAndPopFormatter"]}
{"id": "C103", "title": "The terminal programs send what is typed", "statement": "The serial and socket terminals send exactly the characters that are typed, in order, whatever the lengths of the lines. The hexadecimal terminal sends the bytes whose hexadecimal numbers are typed on a line.", "quantifier": "every input, with and without time stamps", "why_tests_cant": "Lines may be of any length and are cut into pieces by the buffer.", "anchors": ["ecl_core_apps/src/utils/serial.cpp: Writer", "ecl_core_apps/src/utils/hex.cpp: Writer", "ecl_core_apps/src/utils/socket_server.cpp: Writer", "ecl_core_apps/src/utils/socket_client.cpp: Writer"]}
{"id": "C104", "title": "The terminal programs show what is received", "statement": "The serial and socket terminals show exactly the bytes that are received, in order, as text or in hexadecimal. With time stamps the current time is shown before each byte (serial) or line (sockets). A terminal of a socket says when the other side hangs up and stops.", "quantifier": "every sequence of results of reading, every setting, both builds", "why_tests_cant": "What arrives, and when reading fails, depends on the other side.", "anchors": ["ecl_core_apps/src/utils/serial.cpp: Reader", "ecl_core_apps/src/utils/hex.cpp: Reader", "ecl_core_apps/src/utils/socket_server.cpp: Reader", "ecl_core_apps/src/utils/socket_client.cpp: Reader"]}
{"id": "C105", "title": "Devices own their descriptors", "statement": "A socket, serial port or file holds one descriptor while it is open and none otherwise, whichever step of opening or closing fails; open() tells which; no call closes a descriptor that belongs to the rest of the program.", "quantifier": "every history of calls of the device and of the rest of the program opening descriptors, every failure of the system", "why_tests_cant": "Leaks and closing of other descriptors need failures at particular steps and particular reuse of numbers.", "anchors": ["ecl_devices/src/lib/socket_client_pos.cpp: SocketClient::open, close", "ecl_devices/src/lib/socket_server_pos.cpp: SocketServer::open, listen", "ecl_devices/src/lib/serial_pos.cpp: Serial::open, close", "ecl_devices/src/lib/ofile_pos.cpp: OFile::open, close"]}
{"id": "C106", "title": "Text streams report the failures of their device", "statement": "When a read of the device fails while a character, number or word is extracted, fail() says so and the variable keeps its value; a pause of the device does not change what is read; after a chain of extractions fail() tells whether one failed; when the device does not take a text that is streamed out, fail() or an exception says so.", "quantifier": "every sequence of bytes, pauses and failures of the device, every type", "why_tests_cant": "Failures and pauses at every position of a text.", "anchors": ["ecl_streams/include/ecl/streams/text_streams/input_text_stream.hpp: operator>>", "ecl_streams/include/ecl/streams/text_streams/output_text_stream.hpp: operator<<", "ecl_streams/include/ecl/streams/text_streams/base_text_stream.hpp: fail"]}
{"id": "C107", "title": "Shared files used from several threads", "statement": "Several threads may each construct, flush, query and destroy their own SharedFile objects, also for one file, at any time: no data race and no use of a deleted object occurs, a file is open exactly as long as there are objects for it and open once only, count() is the number of these objects, and the failure of one thread to open a file does not hinder the others.", "quantifier": "all numbers of threads, all file names, all schedules of constructions, destructions, flushes and count() calls, interleaved between the mutex operations and the single unprotected accesses; debug and release builds", "why_tests_cant": "the number of interleavings is unbounded, and a race or a deadlock shows up in a test only by luck", "anchors": ["ecl_devices/src/lib/shared_file.cpp: SharedFileManager::RegisterSharedFile, SharedFileManager::DeRegisterSharedFile, SharedFile::open, SharedFile::flush, SharedFile::~SharedFile", "ecl_devices/include/ecl/devices/shared_file.hpp: SharedFileCommon, SharedFile::count", "ecl_threads/src/lib/mutex_pos.cpp: Mutex::lock"]}
{"id": "C108", "title": "Lines logged by several threads are not tangled", "statement": "If several threads each log to the same file through a LogStream of their own, then the file consists of whole lines, and the lines of each thread are all there, in the order in which it logged them; no call reports an error.", "quantifier": "all numbers of streams, all sequences of pieces and line ends of all streams, all interleavings of the calls; debug and release builds", "why_tests_cant": "how the calls of the threads interleave is up to the scheduler, and only lines near the size of the buffer show the trouble", "anchors": ["ecl_streams/include/ecl/streams/log_stream.hpp: LogStream", "ecl_streams/src/lib/log_stream.cpp: LogStream::log", "ecl_streams/include/ecl/streams/manipulators/end_of_line.hpp: EndOfLine::action", "ecl_devices/src/lib/shared_file.cpp: SharedFile::write, SharedFile::flush"]}
{"id": "C109", "title": "Angles in floating point arithmetic", "statement": "wrap_angle, computed in floating point, returns a value between -pi and pi that stands for the direction of its argument to within the precision of the type; wrapping it again changes nothing; the operators of Angle and their assigning forms agree; the conversion to radians and back returns the degrees.", "quantifier": "all arguments of double and of float (finite, without overflow), all roundings to nearest", "why_tests_cant": "rounding near the ends of the interval decides on which side a value lands, and tests compare with tolerances", "anchors": ["ecl_geometry/src/lib/angle.cpp: wrap_angle", "ecl_geometry/include/ecl/geometry/angle.hpp: Angle, radians_to_degrees, degrees_to_radians", "ecl_math/include/ecl/math/constants.hpp: pi"]}
{"id": "C110", "title": "Cumulative statistics in floating point arithmetic", "statement": "After any history of pushes and clears, size is the number of values pushed since the last clear, mean is their mean and variance their variance up to the rounding errors of the type; mean never leaves the range of the data and variance is never negative.", "quantifier": "all histories, all values of float and double (finite, without overflow), all roundings to nearest, any previous contents of memory", "why_tests_cant": "rounding errors add up with the number of values, and no test pushes the 16 million values after which a float counter stands still", "anchors": ["ecl_statistics/include/ecl/statistics/cumulative_statistics.hpp: CumulativeStatistics"]}
{"id": "C111", "title": "Decimal fractions read from a stream in floating point", "statement": "Reading a decimal fraction from a text stream gives the number it denotes, up to the precision of the type that is read into; integers that the type can hold are read exactly.", "quantifier": "all texts of up to 25 digits before and behind the point, every sign and leading blanks, all binary floating point types of at least 24 bits, all roundings to nearest", "why_tests_cant": "tests compare printed values with a few digits; the error of an internal constant appears only in the ninth place of a double", "anchors": ["ecl_streams/include/ecl/streams/text_streams/input_text_stream.hpp: getFloatFromStream, operator>>"]}
{"id": "C112", "title": "Reading and formatting numbers in several threads", "statement": "Threads that read numbers from their own text streams and format numbers into their own streams do not influence each other.", "quantifier": "all numbers of threads, all sequences of reads and formatted writes, all interleavings of the accesses to memory, any contents of the static arrays", "why_tests_cant": "the outcome depends on the interleaving of single memory accesses; a test nearly never meets the few bad ones", "anchors": ["ecl_streams/include/ecl/streams/text_streams/input_text_stream.hpp: getIntegerFromStream, parseHexInteger, getFloatFromStream", "ecl_formatters/include/ecl/formatters/floats.hpp: formatFixed"]}
{"id": "C113", "title": "Several command lines in one process", "statement": "Each of several command line objects of a program behaves as if it were the only one: the same arguments and values after parsing, the same errors.", "quantifier": "all programs that make any number of command lines, declare arguments and parse texts on them in any order", "why_tests_cant": "unit tests parse one command line per process; what one object leaves behind for another shows only in particular orders", "anchors": ["ecl_command_line/include/ecl/command_line/cmd_line.hpp: CmdLine", "ecl_command_line/include/ecl/command_line/arg.hpp: Arg::ignoreRest, Arg::delimiter", "ecl_command_line/include/ecl/command_line/optional_unlabeled_tracker.hpp: OptionalUnlabeledTracker"]}
{"id": "C114", "title": "Polynomials in floating point arithmetic", "statement": "Values, derivatives and roots of polynomials computed in double arithmetic are those of the exact polynomial up to stated error bounds, and as many roots of a quadratic are returned as it has.", "quantifier": "all degrees, coefficients, arguments and all roundings to nearest double", "why_tests_cant": "cancellation depends on the combination of coefficients and argument; samples show small errors and miss the combinations where all digits are lost", "anchors": ["ecl_geometry/include/ecl/geometry/polynomial.hpp: Polynomial::operator(), derivative, dderivative", "ecl_geometry/src/lib/polynomial.cpp: Roots<LinearFunction>, Roots<QuadraticPolynomial>"]}
{"id": "C115", "title": "Opening devices and streams, with and without exceptions", "statement": "When a device or stream cannot be opened the caller is told: by an exception, or in builds without exceptions by the result and the error status; and what the device says about being open is true.", "quantifier": "all devices, both builds, all previous states of the device, all results and error numbers of the system calls", "why_tests_cant": "tests are built one way and open things that can be opened; failures of each system call are hard to provoke", "anchors": ["ecl_devices/src/lib/ofile_pos.cpp: OFile::open", "ecl_devices/src/lib/socket_client_pos.cpp: SocketClient::open", "ecl_devices/src/lib/socket_server_pos.cpp: SocketServer::open", "ecl_devices/src/lib/serial_pos.cpp: Serial::open", "ecl_devices/src/lib/shared_file.cpp: SharedFile::open", "ecl_ipc/include/ecl/ipc/shared_memory_pos.hpp: SharedMemory", "ecl_streams/include/ecl/streams/file_streams.hpp, shared_file_stream.hpp, socket_streams.hpp, serial_stream.hpp: stream constructors", "ecl_exceptions/include/ecl/exceptions/macros.hpp: ecl_throw, ecl_try, ecl_catch"]}
{"id": "C116", "title": "Distances to segments and paths in floating point", "statement": "The distance computed from a point to a trajectory is the distance to the nearest point of the path up to a rounding error that does not depend on the length of the trajectory or on the lengths of its segments; at the vertices, and on the segments, it is zero.", "quantifier": "all trajectories of two or more poses, all points, all roundings to nearest; all pairs of poses", "why_tests_cant": "the parameter along a segment is a quotient of two rounded sums, which may cancel, and may fall on either side of 0 and 1; tests try a few round numbers", "anchors": ["ecl_geometry/src/lib/linear_segment.cpp: LinearSegment::squaredDistanceFromPoint", "ecl_geometry/src/lib/odometry_helper.cpp: distance, distanceSqared"]}
{"id": "C117", "title": "Signals and slots of one data type used from several threads", "statement": "Threads may create, copy, drop, connect and disconnect signals and slots and emit at the same time: there is no data race, every emission calls each subscribed slot exactly once per topic, an endpoint lives as long as it has handles, and when all calls are over the tables say exactly who is connected to what.", "quantifier": "all numbers of threads, all calls, all schedules", "why_tests_cant": "the tables are shared by all endpoints of a data type, also by those that have nothing to do with each other; whether an update is lost depends on the schedule", "anchors": ["ecl_sigslots/include/ecl/sigslots/manager.hpp: connectSignal, connectSlot, disconnect, topics", "ecl_sigslots/include/ecl/sigslots/sigslot.hpp: emit, process, connectSignal, connectSlot, disconnect", "ecl_sigslots/include/ecl/sigslots/topic.hpp: Topic", "ecl_sigslots/include/ecl/sigslots/signal.hpp: Signal", "ecl_sigslots/include/ecl/sigslots/slot.hpp: Slot"]}
{"id": "C118", "title": "A string stream is a queue of values", "statement": "Values of any types (integers, words, booleans, real numbers) written to a StringStream, each followed by a blank, come back in order and without error when they are read into variables of the same types, however writing, reading and clearing are interleaved and however long the stream is used; more generally, insertions, extractions, str(), c_str() and clear() behave like the same calls on a plain text, and never write outside the stream's buffer.", "quantifier": "all histories of insertions, extractions and clear(), all values, all numbers of values", "why_tests_cant": "the buffer grows at moments that depend on the whole history of the lengths written; a test writes a few values of a few types", "anchors": ["ecl_streams/include/ecl/streams/string_stream.hpp: StringStream", "ecl_streams/include/ecl/streams/text_streams/output_text_stream.hpp: operator <<", "ecl_streams/include/ecl/streams/text_streams/input_text_stream.hpp: operator >>", "ecl_devices/src/lib/string.cpp: String", "ecl_converters/include/ecl/converters/char_strings.hpp: Converter"]}
{"id": "C119", "title": "Composing many poses drifts by a bounded amount per motion", "statement": "Composing a 2D pose with any sequence of motions in floating point keeps it near the pose that exact arithmetic gives: after n motions of total length L the heading differs by at most a fixed number of units in the last place per motion, and the position by at most a fixed number of such units per motion times L, for the pose that stores a rotation matrix and for the pose that stores its heading, in float and in double.", "quantifier": "all sequences of motions (up to 2^43 for double, 2^14 for float), all roundings to nearest, all libraries whose cosine, sine and atan2 are accurate to one unit", "why_tests_cant": "the errors add up over the history and are rotated and scaled by all later motions; a test compares a few compositions with a tolerance", "anchors": ["ecl_geometry/include/ecl/geometry/pose2d.hpp: concatenate_poses, extend_pose, Pose2D::operator*", "ecl_geometry/include/ecl/geometry/legacy_pose2d.hpp: LegacyPose2D, operator*, heading", "ecl_geometry/include/ecl/geometry/angle.hpp: Angle::rotationMatrix, Angle(const RotationMatrix&), wrap_angle"]}
{"id": "C120", "title": "A command line accepts exactly the programs whose arguments do not clash", "statement": "Declaring the arguments of a program, alone or in exclusive groups, succeeds exactly if every flag is at most one character other than '-' and blank, no name contains '-' or a blank, and no argument shares its name or flag with an earlier one or with --help, --version and --ignore_rest; arguments without labels must moreover not follow an optional one for a single value.", "quantifier": "all programs of declarations, any number of arguments and groups of all six kinds", "why_tests_cant": "acceptance depends on every pair of declarations and on their order; a test declares a few fixed programs", "anchors": ["ecl_command_line/include/ecl/command_line/cmd_line.hpp: CmdLine::add, CmdLine::xorAdd, CmdLine::_constructor", "ecl_command_line/include/ecl/command_line/arg.hpp: Arg::Arg, operator==, getDescription", "ecl_command_line/include/ecl/command_line/unlabeled_value_arg.hpp: UnlabeledValueArg, operator==", "ecl_command_line/include/ecl/command_line/unlabeled_multi_arg.hpp: UnlabeledMultiArg, operator==", "ecl_command_line/include/ecl/command_line/optional_unlabeled_tracker.hpp: OptionalUnlabeledTracker::check"]}
{"id": "C121", "title": "Integers packed into one buffer read back", "statement": "A program that keeps several integers in one byte buffer, each in a field addressed by a stencil, and uses the converters between integral types and stencils again and again, reads back from every field the number last written into it, whatever was written into the other fields in between, whether those calls succeeded or were refused. A write changes the bytes of its own field only and never the length of the buffer; a field of the wrong size and a field outside the buffer are refused and leave the buffer as it was; and error() of a converter tells whether its last conversion has failed.", "quantifier": "all buffers, all assignments of types to converters, all histories of writes, reads and error queries with any fields and values, both build modes", "why_tests_cant": "A test packs a few fields once; that no field disturbs another one, for every layout, order, value and mixture with failing calls, and what reused converters report, needs all histories.", "anchors": ["ecl_containers/include/ecl/containers/stencil/converters.hpp: Converter", "ecl_containers/include/ecl/containers/stencil/stencil.hpp: Stencil", "ecl_converters/include/ecl/converters/to_byte_array.hpp: IntegralToByteArray", "ecl_converters/include/ecl/converters/from_byte_array.hpp: FromByteArray", "ecl_converters/include/ecl/converters/converter.hpp: ConverterBase"]}
{"id": "C122", "title": "Differential drive and dead reckoning in floating point", "statement": "In double arithmetic, whatever is done with ties: the pose update for wheels that turn by given angles has the exact path and turn up to four units in the last place, and no motion to the side; the wheel rates for given velocities, and the motion read back from them, are exact up to a few units in the last place; commanding a straight motion gives both wheels exactly the same rate and wheels turning alike change the heading by exactly nothing, commanding a turn on the spot gives exactly opposite rates and such wheels do not move the base; a pose extended by the updates of any number of wheel motions has the true heading and position up to a fixed number of units in the last place per motion and per radian turned; the motion read from two poses has the distance of the two up to 27 units in the last place, and the sign of the direction of travel.", "quantifier": "all drives, all wheel motions and velocities, all journeys of up to 2^43 updates, every rounding to nearest, every cosine and sine accurate to a unit in the last place", "why_tests_cant": "the tests compare a few updates with a tolerance; drift over long journeys and exactness of straight motions cannot be sampled", "anchors": ["ecl_mobile_robot/src/lib/differential_drive.cpp: poseUpdateFromWheelDifferential, baseToWheelVelocities, PoseToBaseDifferential", "ecl_geometry/include/ecl/geometry/pose2d.hpp: concatenate_poses"]}
{"id": "C123", "title": "Slots whose functions throw", "statement": "If the function of a slot leaves by an exception while a signal is emitted, the exception reaches the caller of the emission; the connections are unchanged; exactly the slots before the throwing one have been called, in the order in which they would have been called anyway, and nobody after it. Later emissions work as before, and every handle can still be disconnected and destroyed. (The last part is false: the endpoint whose function threw, and every signal that relayed to it, can never be destroyed.)", "quantifier": "all histories of construction, copying, connecting, disconnecting, destroying and emitting, all patterns of calls that throw (depending on everything seen so far), all depths of relays", "why_tests_cant": "whether a destructor waits for ever depends on every exception in the whole history before it; the tests have no throwing slots", "anchors": ["ecl_sigslots/include/ecl/sigslots/sigslot.hpp: process, emit, ~SigSlot", "ecl_sigslots/include/ecl/sigslots/signal.hpp: emit", "ecl_sigslots/include/ecl/sigslots/slot.hpp: ~Slot"]}
{"id": "C124", "title": "Interpolating polynomials in floating point", "statement": "In double arithmetic, whatever is done with ties: the line through two points or through a point with a slope, the cubic with given values and slopes or given values and second derivatives at two ends, and the quintic with values, slopes and second derivatives at two ends have the value, slope and second derivative of the true interpolating polynomial up to a fixed number of units 2^-53 of the data, scaled by a power of the distance of the interval from the origin relative to its length; on an interval starting at 0 the conditions at the start are met exactly; a polynomial of degree up to 33 shifted along the axis has the values of the original up to 3n+2 roundings.", "quantifier": "all end points, values, slopes and second derivatives, all arguments, all degrees up to 33, every rounding to nearest", "why_tests_cant": "the tests compare a few interpolations near the origin with a tolerance; the loss of digits away from the origin is not seen there", "anchors": ["ecl_geometry/src/lib/polynomial_blueprints.cpp: LinearInterpolation, LinearPointSlopeForm, CubicDerivativeInterpolation, CubicSecondDerivativeInterpolation, QuinticInterpolation", "ecl_geometry/include/ecl/geometry/polynomial.hpp: shift_horizontal, operator()"]}
{"id": "C125", "title": "What running out of memory leaves behind", "statement": "An operation that throws because memory runs out, or because copying an element throws, leaves objects that can still be used and destroyed, and loses no memory. For dynamic arrays: every later call answers according to the elements the arrays are known to hold, and the blocks in memory are always one for each array with storage. For the text device: a write that runs out of memory leaves the text and the reading position as they were. For signals and slots: a connection that failed can be made again, with the effect of having been made at once.", "quantifier": "all histories of constructions, copies, assignments, resizes, accesses and destructions of any number of arrays, with any pattern of allocation failures and of element assignments that throw; all histories of calls on a text device with any pattern of failures; all states of the topics and every step of a connection that may fail", "why_tests_cant": "tests run with enough memory, so none of these paths is ever taken; what is left behind shows only in later calls", "anchors": ["ecl_containers/include/ecl/containers/array/array_dynamic_no_mem_check.hpp: Array, resize, clear, operator=, ~Array", "ecl_devices/src/lib/string.cpp: grow, write, clear, ~String", "ecl_sigslots/include/ecl/sigslots/sigslot.hpp: connectSignal, connectSlot, disconnect", "ecl_sigslots/include/ecl/sigslots/manager.hpp: connectSignal, connectSlot, disconnect"]}
{"id": "C126", "title": "Cubic splines in floating point", "statement": "In double arithmetic, whatever is done with ties: the natural and the clamped cubic spline through any number of points with increasing abscissae, and the heuristic one, answer every argument in their domain with the value, slope and (natural and clamped) second derivative of the true spline, up to a fixed number of units 2^-53 of the data, scaled by a power of the distance of the interval from the origin relative to its length; the number of units does not grow with the number of points and does not depend on how unevenly they are spaced.", "quantifier": "all numbers of points, all increasing abscissae, all ordinates and end slopes, all arguments in the domain, debug and release builds, every rounding to nearest", "why_tests_cant": "the tests print splines through a few points; that the elimination does not amplify rounding errors as the number of points grows cannot be tested", "anchors": ["ecl_geometry/src/lib/cubic_spline_blueprints.cpp: C2CubicSpline, DerivativeHeuristicCubicSpline", "ecl_geometry/src/lib/cubic_spline.cpp: operator(), derivative, dderivative"]}
{"id": "C127", "title": "Clocks that fail and sleeps that are interrupted", "statement": "When a clock of the operating system cannot be read, the call that needed it reports the reason and leaves the stop watch, snooze, frequency monitor or watch of processor time as it was: later calls answer as if the failed ones had not been made. A sleep takes the time asked for, or reports that a signal ended it.", "quantifier": "all histories of calls, every pattern of failing readings and of signals, all reasons", "why_tests_cant": "clocks do not fail on the machines tests run on, and signals arrive at any moment of a sleep", "anchors": ["ecl_time/src/lib/timestamp_pos.cpp: TimeStamp::stamp, realtime_now, throwTimeStampException", "ecl_time/src/lib/stopwatch.cpp: StopWatch", "ecl_time/src/lib/cpuwatch_rt.cpp: CpuWatch", "ecl_time/src/lib/snooze_pos.cpp: Snooze", "ecl_time/src/lib/frequency.cpp: FrequencyMonitor", "ecl_time/src/lib/sleep_pos.cpp: Sleep, MilliSleep, MicroSleep, NanoSleep", "ecl_time/include/ecl/time/sleep_pos.hpp: throwSleepException"]}
{"id": "C128", "title": "What a rejected command line is told", "statement": "When a command line is rejected, the message names the argument or word at fault: a declared argument that some word of the line mentions, by its flag and name, with a sentence saying what is wrong and quoting a value only if it stands on the line; or a word of the line that matches nothing; or it says that the line as a whole has too few or too many of the required arguments. Producing messages changes neither which lines are accepted nor their values. The text of an exception stays readable.", "quantifier": "all declarations of arguments, all command lines without NUL characters, all delimiters and constraint descriptions; all sequences of calls of what()", "why_tests_cant": "tests exit at the first rejected line and do not read the error stream; the words at fault depend on the order of declarations and on the earlier words", "anchors": ["ecl_command_line/include/ecl/command_line/arg_exception.hpp: ArgException, argId, what, ArgParseException, CmdLineParseException", "ecl_command_line/include/ecl/command_line/cmd_line.hpp: parse", "ecl_command_line/include/ecl/command_line/arg.hpp: toString", "ecl_command_line/include/ecl/command_line/value_arg.hpp: processArg, _extractValue", "ecl_command_line/include/ecl/command_line/multi_arg.hpp: processArg, _extractValue", "ecl_command_line/include/ecl/command_line/switch_arg.hpp: processArg, combinedSwitchesMatch", "ecl_command_line/include/ecl/command_line/std_output.hpp: failure"]}
{"id": "C129", "title": "What help, version and a rejected line print", "statement": "A program called with --help prints how to call it and then every argument exactly once, the exclusive groups first, with its spellings and description, and its message, and ends with status 0; --version prints its name and version. A rejected line ends the program with status 1; what is wrong with it, how to call the program and a hint that works go to the error stream. An accepted line prints nothing and goes on.", "quantifier": "all declared programs, names, versions, messages, descriptions and command lines", "why_tests_cant": "tests do not end their own process, and no test has long names or texts or unusual delimiters", "anchors": ["ecl_command_line/include/ecl/command_line/std_output.hpp: version, usage, failure, _shortUsage, _longUsage", "ecl_command_line/include/ecl/command_line/help_visitor.hpp: HelpVisitor::visit", "ecl_command_line/include/ecl/command_line/version_visitor.hpp: VersionVisitor::visit", "ecl_command_line/include/ecl/command_line/cmd_line.hpp: parse, _constructor", "ecl_command_line/include/ecl/command_line/arg.hpp: getDescription"]}
{"id": "C130", "title": "NaN and infinities in scalar functions, angles, statistics and distances", "statement": "Values that are not numbers do not turn into numbers unnoticed: sign functions, cube roots and norms answer them consistently; isApprox holds for values that are close or the same, and never for different infinities; an angle is NaN or in [-pi, pi], and an assignment or a clear makes angles and statistics usable again; the mean does not depend on the order of the values; the distance from or to something that is not a number is not a finite number.", "quantifier": "all values of double including NaN and the infinities, all histories of operations on angles and of pushes and clears, all trajectories", "why_tests_cant": "tests use ordinary numbers; the special values meet comparisons whose direction matters, and their effect depends on the whole history", "anchors": ["ecl_math/include/ecl/math/simple.hpp: sign, psign, nsign, cube_root", "ecl_math/include/ecl/math/norms.hpp: euclidean_norm", "ecl_math/include/ecl/math/fuzzy.hpp: isApprox, isApproxOrLessThan", "ecl_geometry/src/lib/angle.cpp: wrap_angle", "ecl_geometry/include/ecl/geometry/angle.hpp: Angle", "ecl_statistics/include/ecl/statistics/cumulative_statistics.hpp: push_back, mean, variance", "ecl_geometry/src/lib/odometry_helper.cpp: distance", "ecl_geometry/src/lib/linear_segment.cpp: squaredDistanceFromPoint"]}
{"id": "C131", "title": "NaN in splines and trajectories", "statement": "Data that are not numbers do not become a trajectory: a smooth linear spline through points with a NaN is refused by the constructor, a tension spline made from one answers NaN everywhere, and the trajectory builders return only trajectories made from waypoints without a NaN and with a tension that is neither NaN nor zero; otherwise they report an error.", "quantifier": "all lists of points and waypoints, all numbers of joints, all limits, both builds, every arithmetic in which NaN spreads (so double with any rounding), any number of passes of the loops", "why_tests_cant": "a single NaN spreads through eliminations and comparisons whose direction decides whether it is noticed, and no test can tell a loop that never ends from a slow one", "anchors": ["ecl_geometry/src/lib/smooth_linear_spline.cpp: SmoothLinearSpline", "ecl_geometry/src/lib/tension_spline_blueprints.cpp: C2TensionSpline", "ecl_geometry/src/lib/tension_spline.cpp: operator(), derivative, dderivative", "ecl_geometry/src/lib/tension_function.cpp: TensionFunction", "ecl_manipulators/src/lib/trajectory.cpp: linearSplineInterpolation, tensionSplineInterpolation, generateLinearSplines, generateTensionSplines, validateWaypoints, initialiseWaypointDurations"]}
{"id": "C132", "title": "Interpolations return", "statement": "Called with usable waypoints (and a positive tension), an interpolation always returns, whatever the limits on the accelerations are, also those a trajectory starts with: the repeated stretching of durations ends.", "quantifier": "all lists of waypoints, all numbers of joints, all tensions, all limits, both builds; any number of passes of the three loops", "why_tests_cant": "a loop that never ends cannot be told from a slow one by waiting; the number of passes grows without bound as the limits fall", "anchors": ["ecl_manipulators/src/lib/trajectory.cpp: tensionSplineInterpolation, generateTensionSplines, linearSplineInterpolation, generateLinearSplines", "ecl_manipulators/include/ecl/manipulators/trajectory.hpp: Trajectory, redimension, maxAccelerations", "ecl_geometry/src/lib/tension_spline_blueprints.cpp: C2TensionSpline"]}
{"id": "C133", "title": "The limits of the exponent", "statement": "What is promised of angles, numbers read from text, polynomials, roots and distances in floating point also holds for very large and very small numbers: no intermediate result overflows or is lost to underflow while arguments and results are of ordinary size.", "quantifier": "all roundings to nearest in IEEE float and double, subnormal numbers included; all arguments in the stated ranges; all texts, degrees and trajectories", "why_tests_cant": "the failing inputs are at the ends of a range of 2000 binary orders of magnitude and a test with ordinary numbers never meets them", "anchors": ["ecl_geometry/src/lib/angle.cpp: wrap_angle", "ecl_geometry/include/ecl/geometry/angle.hpp: Angle, degrees_to_radians", "ecl_geometry/src/lib/polynomial.cpp: Roots", "ecl_geometry/include/ecl/geometry/polynomial.hpp: operator()", "ecl_geometry/src/lib/linear_segment.cpp: LinearSegment::squaredDistanceFromPoint", "ecl_geometry/src/lib/odometry_helper.cpp: distance, distanceSqared", "ecl_streams/include/ecl/streams/text_streams/input_text_stream.hpp: getFloatFromStream"]}
{"id": "C134", "title": "The same program for every arithmetic", "statement": "Computed without rounding, the splines and trajectories of the program that is analysed for NaN are the ones whose continuity, limits and termination are proved: the same spline, the same exception with the same data, the same trajectory after the same waypoint changes.", "quantifier": "all knots, values, limits and tensions; all waypoints of the trajectory's dimension; both build modes; any number of passes of the loops", "why_tests_cant": "it is a statement about the whole program for all real inputs; two implementations that agree on samples may still differ", "anchors": ["ecl_geometry/src/lib/smooth_linear_spline.cpp: SmoothLinearSpline::SmoothLinearSpline", "ecl_geometry/src/lib/tension_spline_blueprints.cpp: C2TensionSpline::apply", "ecl_geometry/src/lib/tension_spline.cpp: TensionSpline::operator()", "ecl_manipulators/src/lib/trajectory.cpp: Trajectory::linearSplineInterpolation, Trajectory::tensionSplineInterpolation"]}
{"id": "C135", "title": "Console output that the terminal refuses, and output that is not flushed", "statement": "Bytes written to an output console reach the terminal once and in order, or the caller is told: when the terminal refuses a block, when the console is destroyed with bytes still waiting, and for writes of any size.", "quantifier": "every history of writes, flushes and destruction, every behaviour of the terminal at every flush, writes of any length, both build modes", "why_tests_cant": "the terminal may refuse any flush, and part of a block may have arrived; writes of 2^32 bytes cannot be tried", "anchors": ["ecl_devices/src/lib/console.cpp: OConsole::write, OConsole::flush, EConsole::write, EConsole::flush", "ecl_devices/include/ecl/devices/console.hpp: OConsole::~OConsole, EConsole::~EConsole", "ecl_devices/src/lib/detail/character_buffer.cpp: CharStringBuffer::append"]}
{"id": "C136", "title": "Bytes reported as written to a file are in the file", "statement": "If writes and flushes on a file that was opened report success, the file holds a beginning of the bytes written at every moment, and all of them after a flush or close that reports success; failures are reported; no history of opening, writing, flushing, closing and destroying is undefined.", "quantifier": "every history, every way the C library buffers, every moment and kind of failure of the disk, both modes of opening, builds with and without assertions and exceptions", "why_tests_cant": "what the C library keeps back, and when the disk fails, cannot be chosen in a test; the bytes lost show up later or never", "anchors": ["ecl_devices/src/lib/ofile_pos.cpp: OFile::open, OFile::write, OFile::flush, OFile::close, OFile::~OFile", "ecl_devices/include/ecl/devices/ofile_pos.hpp: OFile::write(const ByteArray&)"]}
{"id": "C137", "title": "Threads only use objects that exist", "statement": "In the serial, hexadecimal and socket terminals, and for objects derived from Threadable, no thread uses a part of an object before its construction or after its destruction, whatever the scheduler does and whether or not threads can be created; the terminals end when their input does.", "quantifier": "every schedule of main and the threads, every failure to create a thread, builds with and without assertions; for the rule itself: every program that constructs objects, starts threads and waits for them", "why_tests_cant": "the order of construction and the first steps of a thread is up to the scheduler, and a test cannot make the creation of the second thread fail", "anchors": ["ecl_core_apps/src/utils/serial.cpp: Reader, Writer, main", "ecl_core_apps/src/utils/hex.cpp: Reader, Writer, main", "ecl_core_apps/src/utils/socket_server.cpp: main", "ecl_core_apps/src/utils/socket_client.cpp: main", "ecl_threads/include/ecl/threads/threadable.hpp: Threadable::start", "ecl_threads/src/lib/thread_pos.cpp: Thread::~Thread, Thread::join"]}
{"id": "C138", "title": "Splines can be made from arrays of any sizes without accessing elements that do not exist", "statement": "The constructors of the cubic, tension and smooth linear splines, given arrays of any two sizes, either refuse them with an exception or access only elements that exist; a spline that was accepted can be evaluated.", "quantifier": "all sizes of the two arrays (up to what fits an unsigned int), every amount of memory, debug builds, release builds and builds without exceptions", "why_tests_cant": "sizes at which 32 bit arithmetic wraps around do not occur in tests, and an access behind the end of an array usually goes unnoticed in the builds that do not check", "anchors": ["ecl_geometry/src/lib/cubic_spline_blueprints.cpp: C2CubicSpline, DerivativeHeuristicCubicSpline", "ecl_geometry/src/lib/tension_spline_blueprints.cpp: C2TensionSpline", "ecl_geometry/src/lib/smooth_linear_spline.cpp: SmoothLinearSpline", "ecl_containers/include/ecl/containers/array/array_dynamic_no_mem_check.hpp: Array::resize, operator[]"]}
{"id": "C139", "title": "What a shared file does with bytes that the disk refuses", "statement": "Bytes given to a shared file are stored in order and once if every call reports success and a flush follows; when the disk refuses bytes the caller is told, nothing that was reported as taken is lost, and the error status shows it.", "quantifier": "every history of character writes, text writes and flushes on an open handle, every pattern of refusals after any number of bytes, debug and release builds", "why_tests_cant": "a disk that refuses the n-th block after k bytes cannot be arranged in a test, and the loss concerns bytes of earlier calls that had succeeded", "anchors": ["ecl_devices/src/lib/shared_file.cpp: SharedFile::write, SharedFile::flush, SharedFile::~SharedFile", "ecl_devices/src/lib/detail/character_buffer.cpp: CharBuffer::append", "ecl_devices/src/lib/ofile_pos.cpp: OFile::write"]}
{"id": "C140", "title": "The planar covariance ellipse with rounding", "statement": "For every positive definite 2x2 matrix of floats or doubles, the planar CovarianceEllipsoid has two lengths that are numbers, positive, and the rounded roots of the eigenvalues, and axes that are parallel to the eigenvectors, up to an error of rounding.", "quantifier": "all 2x2 matrices (also not symmetric, without rounding), all positive definite ones with rounding, any number of bits of the significand, any rounding to nearest (ties to even where said)", "why_tests_cant": "Which matrices lose their lengths to NaN or their axes to cancellation depends on the last bits of the entries; a test sees a few matrices, and the failing ones look like any other.", "anchors": ["ecl_statistics/src/lib/covariance_ellipsoid.cpp:CovarianceEllipsoid<double,2>::compute", "ecl_statistics/src/lib/covariance_ellipsoid.cpp:CovarianceEllipsoid<float,2>::compute"]}
{"id": "C141", "title": "What the tension of a spline does", "statement": "A tension spline with a low tension differs as little as one likes from the natural cubic spline through the same points, in its values, slopes and accelerations; one with a high tension differs as little as one likes from the straight lines between the points; and both distances are bounded by formulas in the tension, the spacing of the points and the bends of the data. The spline computed with double behaves in the same way.", "quantifier": "all sets of at least three points with rising abscissae, all tensions (also negative ones), all points of the domain, both builds; for double all roundings to nearest", "why_tests_cant": "The two limits are statements about all tensions; a test looks at one tension and one set of points, and does not come near the tensions at which the computation breaks down.", "anchors": ["ecl_geometry/src/lib/tension_spline_blueprints.cpp:C2TensionSpline", "ecl_geometry/src/lib/tension_function.cpp:TensionFunction", "ecl_geometry/include/ecl/geometry/tension_function.hpp:TensionFunction", "ecl_geometry/include/ecl/geometry/tension_spline.hpp:TensionSpline"]}
{"id": "C142", "title": "Copies of devices", "statement": "Files, string devices, semaphores, shared files and consoles can be copied and assigned like other objects (passed by value, returned, kept in containers; streams copy their device): the copy and the original can both be used and destroyed, what they hold is released exactly once, and nothing that was written appears twice.", "quantifier": "every history of constructing, copying, assigning, using, closing and destroying any number of objects", "why_tests_cant": "A double close or a dangling pointer shows up, if at all, somewhere else in the program and depends on what the memory or the descriptor is used for next.", "anchors": ["ecl_devices/src/lib/ofile_pos.cpp: OFile::~OFile, close, open", "ecl_devices/src/lib/string.cpp: String::~String, grow, clear", "ecl_ipc/src/lib/semaphore_pos.cpp: Semaphore::~Semaphore", "ecl_devices/src/lib/shared_file.cpp: SharedFile::~SharedFile, DeRegisterSharedFile", "ecl_devices/src/lib/console.cpp: OConsole::write, flush", "ecl_streams/include/ecl/streams/text_streams/base_text_stream.hpp: BaseTextStream::io_device"]}
{"id": "C143", "title": "Formatter of poses", "statement": "A pose streamed through its formatter is written as its position and its unit quaternion, each number with its name, with the precision and right aligned in the width that hold for it: the temporary ones if it was given with them, else the permanent ones, which hold again afterwards. From the text the seven numbers can be read back up to the decimals. Streaming without a pose is an error in debug builds and writes nothing in release builds.", "quantifier": "every sequence of calls on a formatter, every pose, width and precision, both builds", "why_tests_cant": "Settings that leak from one pose to the next depend on the order of the calls; reading back must hold for all numbers.", "anchors": ["ecl_linear_algebra/include/ecl/linear_algebra/sophus/formatters.hpp: Sophus::SE3fFormatter, operator<<", "ecl_formatters/include/ecl/formatters/floats.hpp: FormatFloat"]}
{"id": "C144", "title": "Devices side by side", "statement": "What a program writes to a socket client or a serial port arrives where that device was opened to, in order and nowhere else, whatever other devices the program constructs, opens, copies, closes and destroys meanwhile; and when no device is open, the process has no descriptor left.", "quantifier": "every history of constructing, opening, copying, assigning, writing, closing and destroying any number of devices of both kinds, and every way in which the system chooses free descriptor numbers", "why_tests_cant": "Data that reaches the wrong peer needs two devices, a number that is reused and a particular order of calls; tests use one device at a time.", "anchors": ["ecl_devices/src/lib/socket_client_pos.cpp: SocketClient::close, open, write", "ecl_devices/include/ecl/devices/socket_client_pos.hpp: SocketClient::~SocketClient", "ecl_devices/src/lib/serial_pos.cpp: Serial::open, close, ~Serial", "ecl_devices/include/ecl/devices/serial_pos.hpp: Serial::write"]}
{"id": "C145", "title": "Copies of threads", "statement": "Thread objects can be copied and assigned like other objects (returned from functions, kept in containers): every thread that was started is given back to the system exactly once, by a join or by the destruction of its object, and joining or destroying any of the copies is defined.", "quantifier": "every history of constructing, starting, copying, assigning, joining and destroying any number of objects, and every order in which their threads end", "why_tests_cant": "Detaching or joining a handle twice hits whatever thread the system has given the handle to since, or nothing; it rarely shows in a test.", "anchors": ["ecl_threads/src/lib/thread_pos.cpp: Thread::start, ~Thread, join", "ecl_threads/include/ecl/threads/thread_pos.hpp: Thread::thread_handle, has_started, join_requested"]}
{"id": "C146", "title": "Copies of shared memory handles", "statement": "Shared memory handles can be copied and passed around: every handle shows the memory of its name from its construction to its destruction, whatever happens to copies of it; the name exists as long as the handle that made it; destroying a handle takes nothing from others; and when no handle is left, nothing stays mapped.", "quantifier": "every history of constructing, copying, destroying, reading and writing any number of handles on any number of names, with other processes reading and writing, and every choice of free addresses by the system", "why_tests_cant": "A copy that is destroyed early unmaps the memory of the original; a test passes as long as the address is not used again or nothing is read afterwards.", "anchors": ["ecl_ipc/include/ecl/ipc/shared_memory_pos.hpp: SharedMemory::SharedMemory, ~SharedMemory, data", "ecl_ipc/src/lib/shared_memory_pos.cpp: SharedMemoryBase::open, unlink"]}
{"id": "C147", "title": "One thread reads a device, another one writes it", "statement": "A connection or serial port may be read by one thread while another one writes it, as the serial and socket terminals do: there is no data race, every call returns what the system did, error() tells of a failure, and the device is closed once.", "quantifier": "every schedule of a reading and a writing thread with any number of calls, every answer of the system to each of them, the client's and the server's side of connections and serial ports, debug and release builds", "why_tests_cant": "Tests of two threads see a few schedules; unsynchronised stores to the same member rarely show, and a connection that is closed twice harms only who got its descriptor meanwhile.", "anchors": ["ecl_devices/src/lib/socket_client_pos.cpp: SocketClient::read, write, close", "ecl_devices/src/lib/socket_server_pos.cpp: SocketServer::read, write", "ecl_devices/include/ecl/devices/serial_pos.hpp: Serial::read, write", "ecl_core_apps/src/utils/serial.cpp: Reader, Writer"]}
{"id": "C148", "title": "Division, intersection and extreme values of polynomials in floating point", "statement": "In double precision, quotient and remainder of a division by a linear factor reproduce the polynomial, the intersection of two lines is the point where they meet, and the maximum and minimum of a linear or cubic function on an interval are the ones it takes there - each up to a few roundings of the terms.", "quantifier": "every polynomial, factor, pair of lines and interval, every rounding to a nearest double", "why_tests_cant": "Tests compare a few polynomials with friendly coefficients; a leading coefficient left over from rounding makes an extremum vanish, which shows only for particular ratios of the coefficients.", "anchors": ["ecl_geometry/src/lib/polynomial.cpp: Division, Intersection, Maximum, Minimum", "ecl_math/include/ecl/math/fuzzy.hpp: isApprox", "ecl_geometry/include/ecl/geometry/polynomial.hpp: Polynomial::operator()"]}
{"id": "C149", "title": "Roots of cubics in floating point", "statement": "In double precision as many roots of a cubic are returned as it has distinct real ones, all of them numbers, and the cubic nearly vanishes at each.", "quantifier": "every cubic with non-zero leading coefficient, every rounding to a nearest double, every cube root, cosine and arc cosine of the C library", "why_tests_cant": "Which branch is taken depends on the sign of a rounded discriminant; a handful of cubics with friendly roots never shows the ones for which rounding loses a double root or takes an arc cosine out of its domain.", "anchors": ["ecl_geometry/src/lib/polynomial.cpp: Roots<CubicPolynomial>", "ecl_math/include/ecl/math/simple.hpp: cube_root"]}
{"id": "C150", "title": "The line of a segment in floating point", "statement": "In double precision, the coefficients A, B, C of a segment describe a line that passes within a few roundings of every point of the segment, however short or steep it is.", "quantifier": "every segment, every rounding to a nearest double", "why_tests_cant": "Steep and short segments lose most digits of the slope; whether the line still meets the segment depends on cancellation that a few friendly segments do not show.", "anchors": ["ecl_geometry/src/lib/linear_segment.cpp: LinearSegment::LinearSegment", "ecl_geometry/include/ecl/geometry/linear_segment.hpp: LinearSegment::A, B, C"]}
{"id": "C151", "title": "A singleton is constructed once", "statement": "However many threads ask for a singleton, all get the same, completely constructed object; its constructor succeeds at most once and is repeated only after it threw; and the object can be used until the program ends, also by destructors of static objects.", "quantifier": "every interleaving of calls by any threads with constructors that return or throw and with the construction of other static objects, and every order of destruction that results", "why_tests_cant": "The first call happens once per process: tests see one order of initialisation and destruction, and the races between first calls depend on the schedule.", "anchors": ["ecl_utilities/include/ecl/utilities/singleton.hpp: Singleton::instance"]}
{"id": "C152", "title": "Asking a Threadable whether it is running", "statement": "A program may ask a Threadable whether it is running while its thread runs, wait for its end in this way, and then use what the thread left behind.", "quantifier": "every execution: whatever the thread does, however often the other thread asks, and in whatever order the two run", "why_tests_cant": "Data races depend on the schedule and on what the compiler makes of plain accesses; on common processors the test programs work.", "anchors": ["ecl_threads/include/ecl/threads/threadable.hpp: Threadable::start, isRunning, executeThreadFunction", "ecl_threads/include/ecl/threads/thread_pos.hpp: ThreadTask::EntryPoint"]}
{"id": "C153", "title": "Durations of trajectory segments in floating point", "statement": "In double precision, the durations computed for the segments of a trajectory let every joint reach the next waypoint without exceeding its nominal rate, and the duration of the trajectory is their sum.", "quantifier": "every number of segments and joints, all angles, durations and positive rates, every rounding to a nearest double", "why_tests_cant": "Whether a quotient is rounded up or down depends on all digits of the angles and rates.", "anchors": ["ecl_manipulators/src/lib/trajectory.cpp: Trajectory<JointAngles>::initialiseWaypointDurations, updateDuration"]}
{"id": "C154", "title": "Using what a thread left behind after waiting for it", "statement": "After join() on a started thread, its owner may use everything that the thread wrote.", "quantifier": "every function of the thread, every use by the owner before and after, every execution with any number of other threads", "why_tests_cant": "Data races depend on the schedule; a missing wait shows only if the thread happens to be slower than its owner.", "anchors": ["ecl_threads/src/lib/thread_pos.cpp: Thread::start, join, cancel", "ecl_threads/include/ecl/threads/thread_pos.hpp: ThreadTask::EntryPoint"]}
{"id": "C155", "title": "Several threads use one Mutex", "statement": "Data that threads use only while they have locked the same Mutex is free of data races, and so is the Mutex itself.", "quantifier": "every number of threads, every sequence of lock, trylock, unlock and locks calls and of actions in between, every execution", "why_tests_cant": "Data races depend on the schedule and are rarely visible in a run: a lost update of the counter inside the mutex leaves no trace in the data that the mutex guards.", "anchors": ["ecl_threads/src/lib/mutex_pos.cpp: Mutex::lock, trylock, unlock", "ecl_threads/include/ecl/threads/mutex_pos.hpp: Mutex::locks, number_locks"]}
{"id": "C156", "title": "The number of locks of a Mutex shared by threads", "statement": "locks() of a Mutex is the number of threads that have locked it or wait for it; in particular it is zero once every thread has unlocked it.", "quantifier": "every number of threads, every interleaving of the reads and writes of their lock, trylock and unlock calls", "why_tests_cant": "A count is lost only if two threads meet within a few instructions; the wrong number then stays for the life of the mutex.", "anchors": ["ecl_threads/src/lib/mutex_pos.cpp: Mutex::lock, trylock, unlock", "ecl_threads/include/ecl/threads/mutex_pos.hpp: Mutex::locks, number_locks"]}
