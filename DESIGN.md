# Formal model of qtprotobuf in Lean 4

## 1. Method

The model is a set of small total Lean functions, one per C++ function, in `lean/Verif/`.
Files whose name ends in `Model` (or that sit in a `Model` role, see the table in section 4)
transcribe the code and cite it line by line. `Spec*` files contain specifications that do not
mention the model's helpers. `Props*` files contain the property theorems only, each followed by
an `example` that shows its hypotheses are met by a concrete non-trivial case.

* **Undefined behaviour is an outcome.** Decoders return `Res α`: `ok a`, `throw e` (with the C++
  exception class), `ub` (an operation C++ does not define: reading outside a buffer, shifting by
  64 or more, signed overflow, null dereference) or `fuel` (the step budget of the model ran out).
  No theorem assumes `ub` away unless its statement says so.
* **Divergence** is expressed with step budgets: "terminates" is "some budget suffices (and the
  theorem names one)", "diverges" is "for every budget the result is `fuel`".
* **Unspecified order** (iteration of `std::unordered_map`) is a universally quantified permutation.
* **Concurrency and event loops** are transition systems; theorems are invariants over all finite
  traces of all lengths.
* Where the code violates a property, the file proves the negation with a concrete witness
  (`..._violated`), and the strongest true version is proved with the suffix `_partial`.

## 2. Trusted base

* Lean 4.33.0 kernel. Theorems depend at most on `propext`, `Classical.choice`, `Quot.sound`
  (`Verif/Audit.lean` prints the axioms of each property theorem during the build).
  No own axioms, no `sorry`, no `native_decide`, no `bv_decide`.
* The transcription of the C++ by hand. Each definition cites file and lines.
* Qt 5 / C++14 facts used in the transcription, none of which is in /repo:
  * little endian two's complement machine, 32 bit `int`; `<<` and `>>` on negative signed values
    behave as on gcc/clang (arithmetic);
  * `QByteArray` is NUL terminated, so reading the byte at `end()` yields 0;
    `QByteArray(ptr, n)` copies n bytes for n >= 0 and `strlen(ptr)` bytes for n < 0;
  * `QString::fromUtf8(QByteArray)` stops at the first NUL (Qt 5), `toUtf8` is UTF-8;
    strings are lists of Unicode scalar values (lone surrogates are not modelled);
  * `QVariant::isNull` is true for null `QString`/`QByteArray` and false for numbers;
    conversion `uint -> bool` is `!= 0`; a `QVariant` holding a bool has its other payload bytes zero;
  * `QMap` iterates in key order; `QMutex`, `QSemaphore`, `QList` behave as documented;
    signals with direct connections run the slots in connection order.
  * conversions between integer types are modulo 2^n, `double` is IEEE 754 binary64 and integers are rounded to the nearest
    `double`, ties to even; an out-of-range conversion from `double` is undefined behaviour.
  * CMake 3.16: elements of lists, the patterns used, and which values `if()` takes for false.

## 3. Plan per property

| id | what is modelled | how it is proved |
|----|------------------|------------------|
| C01 | serializer and deserializer for whole schemas | record-stream refinement (C08) plus `serialize = encoding of a record list`, induction on depth |
| C02 | varint loops | strong induction on the value; canonical form by induction |
| C03 | zigzag on `BitVec` | bit level lemma, case on sign, against integer spec |
| C04 | byte split/join | little endian lemma |
| C05 | encodeHeader/decodeHeader | arithmetic on `BitVec 32` plus C02 |
| C06 | default object, omission rule | from record list of `serialize` |
| C07 | skip functions | record-stream refinement |
| C08 | deserializeMessage loop | induction on the record list with buffer offset invariant |
| C09 | same | commutation of record application for different fields, induction on permutations |
| C10 | list handlers | induction on lists |
| C11 | packed lists | negation witness; partial: one record per field |
| C12 | map handlers | induction on sorted entry lists |
| C13 | enum handlers | sign extension lemma |
| C14 | header rejection | prefix of records followed by bad tag |
| C15 | truncated varints | induction on the truncated bytes |
| C16 | all reads | negation witness; partial: exact characterisation of the inputs with undefined reads (both directions), without negative lengths, in two forms |
| C17 | loop with backward jumps | negation witness; partial: lengths below 2^31, where every sufficient budget gives the same result |
| C18, C19 | `deserialize` wrapper with exception path | record prefix theorem |
| C20 | lazy sub-message creation | divergence witness for recursive schema; partial: ranked schemas |
| C21 | independent reference decoder in a Spec file | refinement between the record semantics |
| C22 | padded varints | induction on padding |
| C23 | iterator class with all operators | invariant over operation sequences |
| C24 | generated `==`, lazy pointer `==`, repeatedValueCompare | induction on depth |
| C25, C26 | generated setters, copy, assign | invariants over histories |
| C27, C28 | mutex/semaphore transition system, N threads | inductive invariant; progress by case analysis |
| C29 | registration list | induction on calls |
| C30 | plugin map | invariant over histories; negation witness for unknown plugin |
| C31 | 5 byte prefix | BitVec lemma |
| C32 | readyRead lambda | negation witness; partial: induction over safe chunkings |
| C33 | processReply and its table | finite table by kernel `decide`, rest by cases |
| C34 | call reply state machine | invariant over event traces |
| C35 | tryDeserialize | cases |
| C36, C37 | client stream table | invariant over traces, negation witness for late timer |
| C38 | attachChannel loop over mutable container | negation witness; partial: at most one stream |
| C39 | QQuickGrpcStream | negation witness; partial |
| C40 | finish handlers | negation witness for native channel; HTTP/2 proved |
| C41 | properties, methods, members and the ordering table of a generated class; moc's rule that the properties are numbered in the order they are printed | induction on the fields; witness for a field named after a signal |
| C42 | the name functions of generatorcommon, and what the names of generated code denote (`SpecNames`) | strings reduced to lists of components; case analysis on the scope; four negation witnesses |
| C43 | option parser of generatoroptions.cpp | induction on the options; negation witness for options after EXTRA_NAMESPACE |
| C44 | the traversals of nested messages and the four passes that print classes | mutual induction on the message tree; negation for unused nested messages |
| C45 | the conversions of qtprotobufqttypes.cpp and the handlers around them; QUrl and QImage stay out because they rest on parsers and codecs inside Qt | case analysis per type; over the wire by C01 and a relation that fixes the arriving object |
| C46 | Timestamp arithmetic | omega; negation witness for nanos |
| C47 | JSON text | negation witnesses; partial |
| C48 | list property functions | refinement to list |
| C49 | credential maps | cases |
| C50 | threads of qRegisterProtobufTypes | negation witness schedules; single thread proved |
| C51 | repeated bool handlers | negation for every schema |
| C52 | readyRead on arbitrary bytes | induction on the container; negation witness for negative lengths |
| C53 | typed synchronous call | cases; negation for throwing serializers |
| C54 | headers of a request | induction on the credential list; negation witness for names differing in case |
| C55 | the list of Q_PROPERTYs printed for a message | case analysis of the name of every property, injectivity of the names; negation witness for a field called like another one plus "Data" |
| C56 | generated move constructor and move assignment on values; what Qt leaves in a moved-from container is a parameter | induction on comparable pairs of values; negation witnesses for signals |
| C57 | holders of sub-message objects as a transition system: read, set, delete by other code, destroy, with and without QML | invariant over all histories; negation witnesses |
| C58 | names of the headers of multi-file mode, the include directives of message headers with the set of existing includes, dependencies of nested messages, client headers; a specification of what an include directive opens | injectivity of paths; invariant over the fold of fields; negation witnesses |
| C59 | names of the headers of single-file mode from file name, directory and package; include directives for imports | case analysis on paths; negation witnesses |
| C60 | declarations and definitions of client methods, with the call each body makes and the path of the request | membership analysis; permutation; exact characterisation of repeated signatures and hidden functions; negation witnesses |
| C61 | constructors with parameters and initializers; members after a call; declarations without a body against definitions | induction over the fields from an index; exact characterisations; negation witnesses |
| C62 | the names of methods, members, classes, constants and functions, against a list of the words of C++ | prefixes, suffixes and first letters of the finite list of words; negation witnesses |
| C63 | the names of types, lists, constants, methods, members in a class, against the names of the schema and the fixed members | permutation into parts; injectivity of capitalising and of suffixes; exact characterisations; negation witnesses |
| C64 | the message a JSON value stands for, as a relation on values of the grammar (`SpecJsonRead`); the reader of the JSON serializer, microjson as a parameter | induction over the relation; negation witnesses with a library built from the reader of the specification |
| C65 | composition of the writer of C47 and the reader of C64 | what is shown stands for an equal message: induction over the message; then C47, C64 and the theorems on assignment and comparison |
| C66 | the same reader with an arbitrary JSON library | induction over the nesting of calls, with the length of the text as measure; negation witness |
| C67 | which byte strings encoders write, as a predicate on records (`SpecInterop`), the reference decoder of C21, and agreement of two messages | simulation: induction over the records, with the remaining records of each field as part of the invariant, and over the nesting; negation witnesses |
| C68 | owners of a reply (client functors, callback functor, user), deferred delete, parent deletion (`Replies`); what a user can do (`SpecReplies.CanDo`) | invariant over histories: no owner iff waiting for the event loop, a reply that is gone has no owner; progress from the invariant; negation witnesses |
| C69 | the same histories with the log of callbacks; `callbacksOf` selects those of one call | a step lemma says what one event does to one reply and its log; no signal, no entry; the callback connection stays until receiver or client end; negation witnesses |
| C70 | call object, worker thread, its queued end, connections, reply, channel as one state with events (`Native`); `Means` says what an answer means | two shapes of states (nothing signalled, over) kept by every event; the phases of a history are followed for delivery; negation witnesses |
| C71 | the waiting loops of both channels over lists of what happens meanwhile (`Native.syncCall`, `syncCall2`) | induction on the list; negation witnesses |
| C72 | the scripts as functions on texts: CMake lists, the four patterns, counting of braces, truth of variables (`Pre`); `Layout` is a specification of how a file has to be laid out | text to items, patterns against `Declares`, induction on the layout; names compared with those of `GenFiles`; negation witnesses |
| C73 | the text of options of the build function (`Pre.optionsString`) read by `Gen.parseFromEnv` | parts of the split text; negation witnesses |
| C74 | slots as lists of actions run inside `read` and `abort` with the lock of each operation; waiting for a lock of the same thread is an outcome (`Handlers`); programs as trees with the locks held (`ReadLock`) | induction on the program and on the slots; negations for all budgets |
| C75 | the registered conversions with the rules of C++ for integers and IEEE 754 numbers on bit patterns (`Convert`); `number` of `SpecFloat` says what bits stand for | ranges of the types; no `double` lies between the neighbours of an integer |
| C76 | client, channel and serializer put together (`EndToEnd`); the server is specified by the gRPC framing, the reference decoder and the usual encodings (`SpecEndToEnd`) | composition of C21, C31, C33, C53, C67, C71 |
| C77 | as C76, with the readyRead handler of the channel and the handler that updates the reply object | composition of C21, C31, C32, C67; the result of an assignment does not depend on the step bound |
| C78 | as C75 | negations for all numbers out of range |
| C79 | the form of written messages, as a predicate on records (`SpecOwn`) over the vocabulary of C67 | induction over the fields in the order of writing and over the nesting |
| C80 | a complete specification of reading on byte strings (`SpecReceive`): what is read, what is left, what is wrong | the specification is total, deterministic and includes the wire format; the decoder agrees with it operation by operation (`ReceiveLemmas`) |
| C81 | registrations printed by the generator and done by the templates of the library; the type of each property; lookups of the serializer | all registrations by shape; a lookup succeeds iff a registration for the type is among them |
| C82 | trimming, replacement and printing of comments, the Printer of protobuf as documented | pairs of characters through replacement and indentation, both directions |
| C83 | status objects with their pointers and the heap of private objects; all public operations | representation invariant (ownership, uniqueness) by induction over histories |
| C84 | the arguments of the registrations of types with QML; the rules of QML for modules and types (`SpecQml`) | injectivity of joining words with dots, codes of characters; negation witnesses |
| C85 | the whole native call: client, call object with its thread, serializer; the server and the gRPC library as environment (`SpecEndToEndNative`) | composition of C21, C67, C18, C71, C53; the HTTP/2 result of C76 for the comparison |
| C86 | the conversions of `QtTypes` against a table of the published messages by field names (`SpecQtPeers`), the reference decoder as peer | cases over the types; C21 and C67 for the bytes |
| C87 | the destructor of the client on top of `Stream`: members, signal `destroyed`, connections, children; what events do afterwards | the invariant of the streams gives the requests that run; an invariant of the state after the destruction |
| C88 | `Threads`: threads with stacks of waiting calls, posted calls and semaphores | invariant about where each outstanding call is; no deadlock by the rank of the threads; a potential bounds the work; invariants of the two bad states |
| C89 | `Subscribe`: calls with the statements of their callers, connections, queued signals | invariant of one call over all interleavings; stability of the state in which a signal was lost |
| C90 | `StreamRead`: stored data, handlers, direct and queued notifications | induction on histories |
| C91 | `Races`: the accesses of every thread to the members of a client, with the points where threads wait for each other | happens-before as an inductive relation; the threads of all entries by induction on the history; negation witnesses |
| C92 | `Channels`: shared channels, requests that belong to them, nested event loops, timers | invariant over histories; a lost call stays lost by induction; negation witnesses |
| C93 | presence over `Codec`: the records that are written of each field, oneofs as groups of fields | refinement to lists of records; negation witnesses for every schema of the kind |
| C94 | the templates word for word, all calls of the Printer for messages, enumerations and clients, the Printer itself (variables, indentation) | a lexer and reader of C++ as specification; symbolic execution of the reader over each template, proved sound once, then composition over the calls by induction on messages |
| C95 | as C94, for the sources of messages and clients | a reader of definitions of C++ (functions, initialisers, tables, calls) as specification; the text is cut into the same items by lemmas on each template, then induction on messages and fields |
| C96 | as C94 and C95, then classes as read from the text: members, signals, functions; a reader and an interpreter of the statements that occur | the bodies are read into statements by lemmas on each template; running them agrees with the models of objects (Objects, Move) by induction on fields and on the depth of calls; then the theorems of C24, C25, C56 |
| C97 | the calls of Q_DECLARE_METATYPE that are read from the text of a header (C94) | the list of them by cases of fields, rearranged; names are apart; a preprocessor for the concrete case |
| C98 | `Waiting`: the client, its channel, objects for replies; what handlers do as a tree (calls inside of calls) | mutual induction on the tree with an invariant: the client is ready, the objects of waiting calls exist; negations for all clients and answers |
| C99 | `GenOrder`: the declarations of headers in order with include directives; `Expands` in the specification reads a header with each header opened once | every header that is on the way is kept as a stack; induction on the reading; where a class stands by induction on trees; negations by the same position lemmas |
| C100 | `GenMulti`: headers and sources of multi-file mode as instructions to the printer; the specification reads classes and functions from both texts | texts cut into sections that the printer prints one after another; forward declarations do not change what is read; refinement to C96 |
| C101 | what is printed for clients (`GenPrint`); the specification has a reader of statements and an interpreter (`SpecCppClient`), and says for each function what happens (`SpecClientRun`) | bodies read statement by statement for arbitrary types, then run by cases on the arguments, the state and what happens later |
| C102 | objects in memory with lazy pointers, shared pointers and destruction (`Heap`); what is seen of a message along a path, and through elements of lists (`SpecHeap`) | an invariant of the objects and frames of steps (`HeapProofs`, `HeapSeen`), what is seen through elements (`HeapDeep`), assignment by induction on the nesting of calls (`HeapAssign`), statements (`HeapRun`) |
| C103 | converters of texts of the QML plugin (`QuickText`), on top of the conversions of C75; Qt's reading of numbers is a parameter that gives a nearest `double` | a nearest `double` of a 32 bit integer is the integer; beyond 2^53 it stays beyond |
| C104 | the serializer working through the classes of generated files (`Meta`): the table and the properties are read from the text, their functions are run from the text | the serializer of C01 and C21 is refined: table, properties, names, READ and WRITE functions by C94, C95, C55 and C96; induction on the nesting of messages and over the bytes |
| C105 | the JSON serializer working through the classes of generated files (`MetaJson`): the table with the JSON names and the properties are read from the text, their functions are run from the text | the serializer of C47, C64 and C65 is refined: table, properties, names, READ and WRITE functions by C94, C95, C55 and C96; induction on the nesting of messages and over the members |
| C106 | a whole program (`Whole`, `WholeAsync`, `WholeAsyncNative`): functions of the client are run from the text of the client source, requests go through the HTTP/2 channel of C76 and C77 or the native channel of C85 (`WholeNative`), objects are those of generated classes, with tables, properties and `operator =` from the text | the models of C76, C77 and C85 are refined (`C106_same_partial`, `C106_native_same_partial`, for all inputs); client functions by C95 and C101, properties by C104, assignment by C96; induction over the list of writes and over the messages of a stream; asynchronous calls by C101 and C108 |
| C107 | the lookups of the JSON serializer (`JsonHandlers`) after the registrations of C81 | its choice is shown to agree with that of the binary serializer for every type (no registered type is in a table), then C81; violated for the fields of C81, here without any error |
| C108 | sessions of overlapping calls (`EndToEndAsync`) over the models of the client, the HTTP/2 channel and the serializer | projection of a history on one call by induction; nothing but an abort changes a call that is over (invariant); then C33, C34 and the parts of C76. Over the native channel (`EndToEndAsyncNative`): the same projection, then C70 and the parts of C85 |
| C109 | the table of partial messages by reply address (`StreamBytes`) over the models of the client, the streams and the reassembly | invariant: at most one live reply uses an entry, and it holds the reassembly of this reply's pieces so far; induction over the history; then C32, C36 and C77 |
| C110 | the program as a function on texts, with Go's scanner of lines and the four patterns (`GoList`); `Layout` is a specification of how a file has to be laid out | patterns against `Begins` and `DeclaresPackage`, induction on the layout; permutation; lines of all texts by induction; negation witnesses |
| C111 | the list model with reference counts of shared pointers and the signals with the rows at the time they are emitted (`ListModel`); views by the protocol of `QAbstractItemModel` (`SpecListModel`) | simulation: each operation appends signals that turn the view of the old rows into that of the new ones; invariant of blocks, objects and deletions; negation witnesses |
| C112 | the server of the chat example: metadata with the memory behind the values, the handlers of the main thread, `sendMessage` at any time in between (`ChatServer`) | induction over the metadata; invariant that relates the writers to what each stream is due, computed from the observations; negation witnesses |
| C113 | the `readyRead` lambda with handlers that act while they are called: nodes of the table have numbers, so that references to an erased one are noticed (`StreamReenter`) | induction on the loop against the model without such handlers; for waiting handlers the negation, for all messages |
| C114 | which objects exist, which functors are connected or running and who holds shared pointers, for one call or stream, with slots and handlers that may destroy the client (`Inside`) | lists of slots are reduced to whether one of them destroys the client, by induction; the remaining cases are finite; exact conditions for each event and the negation |
| C115 | the server of the address book example: contacts, status of the call, handlers of the main thread, calls at any time in between, `endCall` in two steps (`AddressServer`); MD5 for the password of the client (`Md5`) | both kinds of streams are instances of a board that is shown to streams (`BoardLemmas`): invariant that relates the writers to what each stream is due; induction over histories; headers of the client from `Credentials`; negations |
| C116 | the engine of the chat example on top of the gRPC client with its streams: logins, channels, slots with their captured names, repeated requests (`ChatEngine`, `Stream`, `Credentials`, `Md5`, `ChatServer`) | invariant: each login has one stream, at most the last is active; steps as a relation; requests that are due or run bound the failures of a stream; induction over histories; the theorems of C112 for the server; negations |
| C117 | the client of the tutorial down to the bytes: engine, input field, nested event loops, the messages of tutorial.proto, HTTP/2 calls, and the server in Go with the reference decoder (`EchoEngine`, `EndToEnd`) | induction over sessions given as a relation; the theorems of C21, C67, C33 and C71 for one call; negations for all texts |
| C118 | the conversions and handlers of `QUrl` and `QImage`, with Qt's parser, printer and codecs as parameters (`QtMedia`) | C20, C21, C67 and C79 for the two messages; what a message stands for is kept by decoders that agree; negation |
| C119 | the handlers of Qt's types called by the JSON serializer (`QtJson`) | C47, C64, C65 and C86 composed; messages that are the same convert to the same value; negation |
| C120 | classes with members of Qt's types, the serializer's and deserializer's handling of them, the setter (`QtFields`) | own bytes cut into records field by field; induction over the records; C86 for the messages; negations |
| C121 | generated comparison, assignment and copy constructor of classes with members of Qt's types, target of deserialize (`QtObjects`) | field by field with the lemmas of C24 and C25; C120 for the received object; negation |
| C122 | serialize and deserialize for classes that refer to each other and have members of Qt's types (`QtNested`) | induction on the depth, with the record lemmas of C120; termination by induction on the object; negation |
| C123 | ==, =, the copy constructor and the target of deserialize for the classes of C122 (`QtNestedObjects`) | induction on the sum of the depths of the two objects and on the budget, with C24 and C25 for the other fields; negation |
| C124 | Move constructor and move assignment of the classes of C122 (`QtNestedMove`) | induction on the sum of the depths, with C56 for the other fields and C123 for comparisons; negation |
| C125 | JSON serializer and deserializer for the classes of C122 (`QtNestedJson`) | induction over objects and over the meaning of documents, with C47, C65 and C119 for the parts; negation |
| C126 | any text in the deserializer of C125 (`QtNestedJson`) | induction over the bound of nesting and over the members of the text, with C66 for the parts; lists that are read have no null pointers; with `QRect` the only undefined texts hold a rectangle beyond the range of `int` (`SpecQtNestedJsonRects`); negation |
| C127 | handlers of `QUrl` and `QImage` in JSON (`QtMediaJson`), with Qt's parser, printer and codecs as parameters | C47, C65 and C66 for the messages, and the conversions of C118 |
| C128 | `deserializeDeep` of `QtNested` on any bytes | invariant of the loop over the fields and induction on the depth; end and undefined behaviour with the locality lemmas of C16 and C17; the last sentence fails, with witnesses and the exact set of inputs that are undefined: cut off, or with a `QRect` beyond the range of `int` |

## 4. What is modelled, where, and what is not

### Model files

| File in `lean/Verif` | Code it transcribes (under `src/`) | Properties |
|---|---|---|
| `Wire`, `Values` | `protobuf/qprotobufserializer_p.h` (varints, zigzag, fixed, length delimited, headers), `qprotobufselfcheckiterator.h` | C02-C05, C13, C22 |
| `Codec` | `protobuf/qprotobufserializer.cpp`, `qabstractprotobufserializer.h`, `qabstractprotobufserializer_p.h` | C01, C06-C21, C51 |
| `Objects`, `Setters`, `Move` | code printed by `generator/messagedefinitionprinter.cpp` with `templates.cpp`: comparison, copy, assignment, setters, signals, moves; `protobuf/qprotobuflazymessagepointer.h` (comparison) | C19, C24-C26, C56 |
| `Lifetime` | `protobuf/qprotobuflazymessagepointer.h` (ownership), the generated accessors | C57 |
| `SelfCheck` | `protobuf/qprotobufselfcheckiterator.h` with all its members | C23 |
| `Registry` | `protobuf/qabstractprotobufserializer.cpp` (handler registry, threads) | C27, C28 |
| `TypeReg` | `protobuf/qtprotobuf.cpp`, `ProtoTypeRegistrar` of `qtprotobuftypes.h` | C29, C50 |
| `Plugins` | `protobuf/qprotobufserializerregistry.cpp` | C30 |
| `Http2` | `grpc/qgrpchttp2channel.cpp`: framing, reassembly, status | C31-C33, C52 |
| `Call` | `grpc/qabstractgrpcclient.h/.cpp` (calls), `qgrpccallreply.cpp`, `qgrpcasyncoperationbase_p.h`, `call` of the HTTP/2 channel | C34, C35, C53 |
| `Replies` | ownership and callbacks of call replies: `grpc/qabstractgrpcclient.h/.cpp`, `qgrpccallreply.h/.cpp`, methods printed from `generator/templates.cpp` | C68, C69 |
| `Native` | `grpc/qgrpcchannel.cpp`, `qgrpcchannel_p.h` (calls); the waiting loop of synchronous calls of both channels | C70, C71 |
| `Pre` | `cmake/QtPreParseProtoFile.cmake`, `cmake/QtProtobufGen.cmake` (list of files, options) | C72, C73 |
| `GoList` | `generator/parsemessages.go` (all of it); Go's `bufio.Scanner`, `regexp`, `strings` as documented | C110 |
| `ListModel` | `examples/examples_common/universallistmodel.h`: `UniversalListModel` but `at` and `indexOf` (which do not compile when they are used); `QSharedPointer`, `QList`, `QHash` and `QAbstractItemModel` as documented | C111 |
| `ChatServer` | `examples/simplechatserver/main.cpp` but `usersOnline` (which nobody calls), TLS and the console; grpc++ only by what is written to and finished on which stream | C112 |
| `AddressServer` | `examples/addressbookserver/main.cpp` but TLS and the console; grpc++ only by what is written to which stream; `endCall` is two steps, every other call one | C115 |
| `Md5` | MD5 (RFC 1321) and `QByteArray::toHex`, which are Qt's, as documented | C115 |
| `ChatEngine` | `examples/simplechat/simplechatengine.cpp`: `login`, `sendMessage` and the slots of the stream; reading the list from its bytes, images and the clipboard are left out; requests of a channel that is deleted are silent | C116 |
| `EchoEngine` | `examples/clienttutorial`: the engine, `onAccepted` and the bindings of `main.qml`, `tutorial.proto`, the method of `tutorialserver/main.go` behind the reference decoder; calls wait in nested event loops | C117 |
| `QtMedia` | `src/qttypes/qtprotobufqttypes.cpp:63-69, 265-290`: `QUrl` and `QImage`; Qt's URL parser and printer and its image codecs are parameters | C118 |
| `QtJson` | `src/qttypes/qtprotobufqttypes.cpp:278-290` with `src/protobuf/qprotobufjsonserializer.cpp:159-174, 314-333, 387-396` | C119 |
| `QtFields` | `src/generator/templates.cpp:102-104, 223-235`, `src/protobuf/qprotobufserializer.cpp:81-104, 258-325` and `src/qttypes/qtprotobufqttypes.cpp:278-317` for classes with members of Qt's types | C120 |
| `QtObjects` | `src/generator/messagedefinitionprinter.cpp:204-242, 314-353`, `src/protobuf/qabstractprotobufserializer.h:97-111` for classes with members of Qt's types | C121 |
| `QtNested` | `src/protobuf/qabstractprotobufserializer_p.h:78-106, 174-200`, `src/protobuf/qprotobufserializer.cpp:81-117, 258-325`, `src/protobuf/qprotobuflazymessagepointer.h:61-66` for classes that refer to each other and have members of Qt's types | C122, C128 |
| `QtNestedObjects` | `src/generator/messagedefinitionprinter.cpp:204-242, 314-353`, `src/generator/templates.cpp:102-104, 125-132, 169-171`, `src/protobuf/qprotobuflazymessagepointer.h:61-73`, `src/protobuf/qabstractprotobufserializer.h:97-111` for the classes of `QtNested` | C123 |
| `QtNestedMove` | `src/generator/messagedefinitionprinter.cpp:245-312`, `src/generator/templates.cpp:133-152` for the classes of `QtNested` | C124 |
| `QtNestedJson` | `src/protobuf/qprotobufjsonserializer.cpp:159-197, 314-362, 382-432` for the classes of `QtNested` | C125, C126 |
| `QtMediaJson` | `src/qttypes/qtprotobufqttypes.cpp:278-290` for `QUrl` and `QImage`, called by `src/protobuf/qprotobufjsonserializer.cpp:159-174, 314-333` | C127 |
| `Handlers` | `read`, `setData` (`qgrpcasyncoperationbase_p.h`), `QGrpcCallReply::abort`, the client's slot of `error` | C74 |
| `Convert` | `registerBasicConverters` (`qtprotobuf.cpp`), `transparent` (`qtprotobuftypes.h`) | C75, C78 |
| `EndToEnd` | composition of `Call`, `Http2`, `Native`, `Objects`: `call` and `stream` of `qabstractgrpcclient.h` over `qgrpchttp2channel.cpp`; `post` (path and body) | C76, C77 |
| `Stream` | `grpc/qabstractgrpcclient.cpp` (`stream`, `attachChannel`), `qgrpcstream.h/.cpp`, `stream` of both channels | C36-C38, C40 |
| `QuickStream` | `grpc/quick/qquickgrpcstream.cpp/_p.h` | C39 |
| `Credentials` | `grpc/qgrpccredentials.h` and the credential classes; headers set by the HTTP/2 channel | C49, C54 |
| `QmlList` | `protobuf/qqmllistpropertyconstructor.h` | C48 |
| `Json` | `protobuf/qprotobufjsonserializer.cpp`, serializing half | C47, C65 |
| `JsonRead` | `protobuf/qprotobufjsonserializer.cpp`, deserializing half; `qabstractprotobufserializer_p.h:174-274` | C64–C66 |
| `QtTypes` | `qttypes/qtprotobufqttypes.cpp` | C45 |
| `Timestamp` | `generator/messagedefinitionprinter.cpp:119-128` | C46 |
| `GenText`, `Gen`, `GenNames` | `generator/utils.h`, `generatoroptions.cpp`, `generatorcommon.h/.cpp`, message printers (class structure), forward order of `singlefilegenerator.cpp`, `multifilegenerator.cpp` | C41-C44, C55 |
| `GenFiles` | names of files and include directives: `generator/generatorbase.cpp`, `multifilegenerator.cpp`, `singlefilegenerator.cpp`, `servicedeclarationprinterbase.cpp` | C58, C59 |
| `GenClient` | the classes of clients: `generator/clientdeclarationprinter.cpp`, `clientdefinitionprinter.cpp`, the templates for them, `grpc/qgrpchttp2channel.cpp:117` (path) | C60 |
| `GenMembers` | constructors, initialization lists, out-of-class definitions, enumerations and type names of classes: `generator/messagedeclarationprinter.cpp`, `messagedefinitionprinter.cpp`, `enumdeclarationprinter.cpp`, `generatorcommon.cpp:74-76` | C61–C63 |
| `GenRegister` | registration and lookup of handlers for the generated types: `generator/messagedefinitionprinter.cpp` (`printRegisterBody`, registrar), `enumdefinitionprinter.cpp`, `messagedeclarationprinter.cpp` (types of properties), `protobuf/qabstractprotobufserializer.h`, `qtprotobufqttypes.cpp` (`registerQtTypeHandler`) | C81 |
| `GenComments` | `generator/baseprinter.h` (`printComments`), `generator/utils.h` (`trim`, `replace`); protobuf's `Printer` as documented | C82 |
| `StatusValue` | `grpc/qgrpcstatus.h`, `grpc/qgrpcstatus.cpp` (all of `QGrpcStatus`); `std::unique_ptr` as documented | C83 |
| `GenQml` | `generator/messagedefinitionprinter.cpp`, `generator/enumdefinitionprinter.cpp` (`printRegisterBody`: registration with QML), `generator/generatorcommon.cpp` (`qml_package`) | C84 |
| `EndToEndNative` | `grpc/qgrpcchannel.cpp` (request, reading loop of a stream), whole calls with `Call`, `Native`, `Objects` | C85 |
| `SpecQtPeers` (specification) | `qttypes/QtProtobuf/QtCore.proto`, `QtGui.proto` against `QtTypes` | C86 |
| `ClientEnd` | `grpc/qabstractgrpcclient.cpp` (destructor), slots for `destroyed` in `grpc/qgrpchttp2channel.cpp` and `grpc/qgrpcchannel.cpp` | C87 |
| `Threads` | `grpc/qabstractgrpcclient.cpp` (calls forwarded to the thread of the client), event loops of the synchronous calls in both channels | C88 |
| `Subscribe` | `grpc/qabstractgrpcclient.cpp` (asynchronous calls from any thread), `grpc/qgrpccallreply.h/.cpp`, `grpc/qgrpcasyncoperationbase_p.h` | C89 |
| `StreamRead` | `grpc/qgrpcstream.h` (`handler`), `grpc/qgrpcasyncoperationbase_p.h` (`read`, `setData`) | C90 |
| `ReadLock` | `grpc/qgrpcasyncoperationbase_p.h` (the lock), `grpc/qabstractgrpcclient.h` (`tryDeserialize`) | C74 |
| `Races` | `grpc/qabstractgrpcclient.cpp`, `grpc/qabstractgrpcclient.h` (accesses to `channel` and `activeStreams`) | C91 |
| `Channels` | `grpc/qabstractgrpcclient.cpp` (`attachChannel`), lifetime of both channels and their requests, timer of `post` | C92 |
| `Waiting` | `grpc/qabstractgrpcclient.h` and `.cpp` (`call`, `serializer`, the handler of `stream`), `grpc/qgrpcasyncoperationbase_p.h` (`read`) | C98 |
| `GenOrder` | `generator/messagedeclarationprinter.cpp` (order of declarations), `singlefilegenerator.cpp`, `multifilegenerator.cpp` (order of includes, forward declarations and classes); what stands in classes besides the types of fields is left out | C99 |
| `Meta` | how the serializer finds the fields of an object: `qprotobufserializer.cpp:81-104, 285-325`, `qprotobufmetaobject.h:37-46`; `QMetaObject::property`, `QObject::property` and moc are Qt's | C104 |
| `MetaJson` | how the JSON serializer finds the fields of an object: `qprotobufjsonserializer.cpp:176-197, 335-362`, `qtprotobuftypes.h:57-74`; `QMetaObject::property`, `QObject::property` and moc are Qt's | C105 |
| `Whole`, `WholeNative`, `WholeAsync`, `WholeAsyncNative` | a generated program: `qabstractgrpcclient.h:92-131, 161-184, 205-246`, `qgrpccallreply.h:56-73`, `qabstractprotobufserializer.h:97-111` on objects of generated classes; requests from the text of the client source | C106 |
| `JsonHandlers` | `qprotobufjsonserializer.cpp:125-178, 314-333, 439-478`: which function writes or reads a type | C107 |
| `EndToEndAsync` | `qabstractgrpcclient.h:123-131`, `qabstractgrpcclient.cpp:99-131`, `qgrpchttp2channel.cpp:231-270`, `qgrpcasyncoperationbase_p.h:55-63`: sessions of asynchronous calls | C108 |
| `StreamBytes` | `qgrpchttp2channel.cpp:112, 272-385`: the table of unfinished messages, keyed by the address of the reply; an address is an arbitrary number, two replies may have the same if one of them is gone | C109 |
| `StreamReenter` | `qgrpchttp2channel.cpp:280-318` with handlers that abort their stream or run an event loop in which bytes of it arrive | C113 |
| `Inside` | `qabstractgrpcclient.cpp:99-191`, `qgrpchttp2channel.cpp:231-386`, `qgrpcchannel.cpp:207-241, 259-317`, `qgrpcstream.h:74-80`, `templates.cpp:311-344`: lifetimes of objects and functors only, for programs that destroy the client in functions that are called | C114 |
| `EndToEndAsyncNative` | the same for `qgrpcchannel.cpp:207-241`: calls with threads of their own | C108 |
| `QuickText` | string converters for number properties in QML: qtprotobufquickplugin.cpp:31-46 | Qt's `QString::toDouble` is a parameter; how QML finds a converter is Qt's |
| `Heap` | generated copy constructor, `operator =`, `==`, setters and lazy pointers acting on objects in memory: qprotobuflazymessagepointer.h:37-73, messagedefinitionprinter.cpp:200-242, 312-353, templates.cpp:125-132, 215-235, qtprotobuftypes.h:278-294; values are numbers; maps of messages, `setX_p`, objects that comparing creates, and shared pointers in variables of the program are left out | C102 |
| `GenMulti` | `generator/multifilegenerator.cpp` (what is printed into the headers and sources of messages, enumerations and clients); comments of the schema are left out | C100, C99 |
| `Codec` | (as above; that `src/generator` never asks for `oneof` descriptors) | C93 |
| `GenTemplates`, `GenPrint` | `templates.cpp` (all templates used by the printers of messages, enumerations and clients, word for word), `messagedeclarationprinter.cpp`, `messagedefinitionprinter.cpp`, `enumdeclarationprinter.cpp`, `enumdefinitionprinter.cpp`, `clientdeclarationprinter.cpp`, `clientdefinitionprinter.cpp`, `singlefilegenerator.cpp:69-258`, the maps of variables of `generatorcommon.cpp`, `io::Printer` (substitution, indentation) | C94, C95, C96 |

`Spec*`, `Reference`: specifications. `*Lemmas`, `Receive*`: proofs only. `Props*`: the property theorems. `Demo*`: concrete values for
examples. `Audit`: prints the axioms of every theorem named in `MANIFEST.json`.

### Vocabulary shared by model and specification

The specifications use from the model the types of values (`Values.lean`: `Kind`, `FieldTy`, `Val`, `Scalar`), `defaultVal`, the
order of map keys (`keyLt`) and C++ equality of scalars (`scalarEq`). The last one is itself specified from IEEE 754 in
`SpecFloat.lean`, with the agreement proved in `FloatLemmas.lean`.

### Not modelled

* The `microjson` library: its directory is empty in this checkout. It is a parameter of the model of the JSON reader; C64 and C65 assume
  that it reads JSON (`ReadsJson`), C66 that it returns or throws (`LibraryReturns`) or nothing at all.
* Qt's URL parser and image codecs: parameters of the model of the `QUrl` and `QImage` conversions (C118).
* Qt's value types: the values of default constructed objects are taken from Qt's documentation, Qt's `==` is a parameter of the model (C120).
* The grpc++ library under the native channel: what it answers is an input.
* QtNetwork, the event loop, QML engine and plugin loader: environment, quantified over (all bytes, errors, orders, moments).
* Of the text printed by the generator (`GenPrint`, `GenMulti`, C94, C95, C96, C100, C101, C104-C106): `ServerDeclarationPrinter` (no generator uses it); that the text compiles (C94 and C95 read
  words, literals, brackets, declarations, functions, initialisers, tables and calls; C96 reads the statements of comparisons, copies, moves, getters,
  setters and the initialisers of constructors; types are compared with the schema, not checked as C++ types); of the `CMake` files all but the list of generated files and the options (`Pre`).
* The identity shortcut of Qt's containers (two lists that share data compare equal even if they contain a NaN).
* Memory exhaustion, sizes of 2^31 bytes and more (theorems assume less where it matters), stack depth.
* Concurrency other than in C27-C29, C38, C50, C70, C71, C88-C92: the library is used from one thread at a time or through queued signals.

## 5. Disagreements between the code and the properties

Each has a theorem with a concrete witness (often for all values of a family). The text is the one that stands beside the theorem.

| Theorem | What happens |
|---|---|
| `C101_callback_violated` | C101 is violated: who calls with a function for the reply is told of the answer, but of a failure and of a missing channel never (but for a warning in the log). |
| `C101_no_channel_violated` | C101 is violated: without a channel, a call from QML that is not refused for another reason dereferences a null pointer, for every method of every service. |
| `C101_stream_null_violated` | C101 is violated: the function that starts a stream for QML dereferences its argument without looking whether there is one, for every stream of every service. |
| `C102_child_violated` | C102 fails where the source is part of the target: after `a = a.x()` the value of `a` is not that of `a.x()` but 0, whatever it was: `a.x()` is written to before its value is read. |
| `C102_element_violated` | C102 fails where the source is an element of the target: `a = *a.kids()[0]` frees the message that it is reading. |
| `C102_parent_violated` | C102 fails where the target is part of the source: `a.x() = a` (or `a.setX(a)`) never returns, whatever the value of `a` (if it is not 0): the message that is copied grows with the copy. |
| `C102_shared_violated` | C102 fails for elements of lists: a copy shares them with its source, whatever was copied. Writing through an element of the copy shows in the source. |
| `C103_junk_violated` | **C103, negation.** A text that is no number is not refused. It gives the property the number 0. |
| `C103_missing_violated` | **C103, negation.** No text can be assigned to a property of a 64 bit type. |
| `C103_range_violated` | **C103, negation.** The text of an integer that the type does not have is undefined behaviour. |
| `C104_name_violated` | C104 does not hold for a field called like the list of another: with `message Clash { repeated Nothing x = 1; string xData = 2; }` two properties are called "xData", and the serializer, which looks properties up by name, writes one of them for both fields. Where the last property of a name is found (Qt 5) the text is written for field 1 too, and the reference decoder rejects the bytes; where the first is found (Qt 6) the text is not written at all. |
| `C105_name_violated` | C105 does not hold for a field called like the list of another: with `message Clash { repeated Nothing x = 1; string xData = 2; }` two properties are called "xData", and the serializer, which looks properties up by name, writes one of them for both fields. Where the last property of a name is found (Qt 5) the text is written for `x` too, `{"x":"h","xData":"h"}`; where the first is found (Qt 6) the list is written for the text, `{"x":[],"xData":[]}`. |
| `C107_bools_violated` | C107 is violated: a list of bool is written as the text of the QVariant, which is empty, and not read. |
| `C107_neighbour_enum_violated` | C107 is violated: an enum that is declared in a message which has no field of this type, and used in a field of another message, is written without quotes and not read. |
| `C107_qt_map_violated` | C107 is violated: a map with values of a Qt type is written as the text of the QVariant and not read, although the Qt type itself has a handler. |
| `C109_soiled_violated` | C109 is violated: `abort()` leaves the bytes of the unfinished message in the table, under the address of the network reply. If the reply of another request gets this address, its handler is called with bytes of the aborted stream and of a frame's header, and its own two messages, which have arrived completely, are lost. With another address it gets them. |
| `C110_comment_violated` | **C110, negation.** A line of a comment that begins with `message` gives a header that is never written. |
| `C110_enums_violated` | **C110, negation.** In multi-file mode the header of the enumerations outside of messages is not printed. |
| `C110_indented_violated` | **C110, negation.** The header of a message whose declaration is indented is not printed. |
| `C110_nested_violated` | **C110, negation.** A nested message that is not indented is taken for one of the file. |
| `C110_package_violated` | **C110, negation.** With a semicolon in a comment behind the declaration of the package, the rest of the line up to there is taken for its name. |
| `C111_beyond_violated` | **C111, negation.** `remove` of a row that does not exist, which QML may call with any number, tells the views to remove a row that they do not have. |
| `C111_early_violated` | **C111, negation.** Before somebody has called `roleNames`, no role shows anything. |
| `C111_null_violated` | **C111, negation.** Looking for a property in a list with a null pointer is undefined. |
| `C111_silent_violated` | **C111, negation.** `remove` of an object is announced to nobody: a view goes on showing the row, and asking for it gives the row that came after it. |
| `C111_twice_violated` | **C111, negation.** An object that the application owns by a shared pointer of its own and hands over as a plain pointer is deleted twice. |
| `C112_early_violated` | C112 is violated: the server is started before its first handler is made. A message that comes in between makes it read beyond an empty vector. |
| `C112_finished_violated` | C112 is violated: a subscriber that was not let in is written to after its stream was finished, with all messages of the chat. |
| `C112_longer_violated` | C112 is violated: a name that continues after that of a user, and a hash that continues after that of the password, are taken for these. No user is called so. |
| `C112_memory_violated` | C112 is violated: with a short name it depends on the bytes behind it in memory whether the caller is let in, and reading them may be undefined. |
| `C112_missed_violated` | C112 is violated: a message that comes after a subscriber was shown the chat and before the next handler is made is not written to this subscriber; it is last shown an empty chat. |
| `C113_twice_violated` | C113 is violated, for every message, and whatever follows: if bytes arrive while the handler of the first message runs an event loop, the stream is passed this message a second time (or something undefined happens). |
| `C113_wait_violated` | C113 is violated: if all that arrives while the handler of the first message waits are complete messages, the entry of the table is erased under the feet of the outer call: undefined behaviour, for all messages. |
| `C114_violated` | **C114 does not hold**, not even for a program that holds no pointers: a handler of a stream that destroys the client. |
| `C114_where_violated` | **C114, where it fails.** Over either channel, whoever holds the channel: a handler of a stream, or a slot of the client's `error` when a stream fails, that destroys the client; and a slot of the client's `error` when a call fails whose reply nobody holds. |
| `C115_crossed_violated` | C115 is violated: a call that is made while another one is ended is over a moment later, though nobody ended it. |
| `C115_early_violated` | C115 is violated: the server is started before its handlers are made. Contacts that are added, or calls that are made, in between make it read beyond an empty vector. |
| `C115_missedStatus_violated` | C115 is violated: a listener is not told of a call that is made after it was told the status and before the next handler is made. |
| `C115_missed_violated` | C115 is violated: a contact that is added after a listener was shown the list and before the next handler is made is not shown to this listener. |
| `C115_unheard_violated` | C115 is violated: a call that is made when nobody listens is answered with an invalid status, without a number, and the status of the call stays as it was: who listens later is told that there is no call, and it cannot be ended. |
| `C116_crossed_violated` | C116 is violated: the request of a login that failed is repeated after a second with the account of the login after it, and its list is shown under the name of the login that failed; messages are then sent with another account than the one whose name is shown. |
| `C116_longer_violated` | C116 is violated: a user with a longer name is let in, and the server stores the messages under another name than the client shows. |
| `C117_null_violated` | C117, no request object: `request` with a null pointer, which a user interface may pass, is undefined whatever the server does. |
| `C117_overlap_violated` | C117, requests that overlap: the claim that the response shows the answer to what was entered last is false. For all texts: if `u` is entered while the request for `t` waits, both are answered, and the response is left with `t`. |
| `C117_typing_violated` | C117, typing while a request waits: the claim that what the user types is sent once it is entered fails, because the input field is cleared when the answer comes. For all texts: what was typed while the request for `t` waited is gone, and the next entry sends an empty text. |
| `C118_resent_violated` | C118, images that are passed on: the claim that a program which reads an image and writes it again writes what it got fails for every image in another format than PNG, with every codec: the format that is written is PNG. |
| `C119_digits_violated` | **C119 violated**: a `float` is printed with 6 significant digits. Two vectors that differ behind them are different, and the same text is written for both, so one of them does not survive. |
| `C11_split_violated` | Negation of C11: the packed `sint32` list 1, 2 sent in two records `1A 01 02` and `1A 01 04` is decoded as the list 2. |
| `C120_new_object_violated` | A new object with a `QTime`, which is null, does not arrive as such: it is midnight on the other side. |
| `C120_tiny_point_violated` | A point in a field, written and read: when Qt takes it for equal to (0, 0), (0, 0) is what arrives. Qt documents that it compares points approximately, so this is what becomes of (1e-13, 0). |
| `C121_copy_violated` | A copy of a message with a point that Qt takes for equal to (0, 0), such as (1e-13, 0), has (0, 0). |
| `C122_unset_violated` | An unset sub-message whose class has a `QTime`, which would be null, arrives as one with midnight: `message Sub { QtProtobuf.QTime t = 1; }`, `message M { Sub s = 1; }`. |
| `C123_copy_violated` | A copy of a message whose inner message has a point that Qt takes for equal to (0, 0), such as (1e-13, 0), has no inner message: the member is unset in the copy, although it is set in the original. |
| `C124_construct_violated` | A point that Qt takes for equal to (0, 0), such as (1e-13, 0), in a sub-message does not reach an object that is constructed by move: the sub-message is unset in the new object, and stays in the source. |
| `C125_empty_violated` | **C125 violated**: an object of a class without fields is written as a closing brace, so that the message it is in is not written as JSON. |
| `C125_recursive_violated` | **C125 violated**: of a class that leads back to itself through singular fields not even a new object is ever written: the calls go on until the stack is used up. |
| `C126_far_violated` | **C126 violated**: whatever the classes, a `QRect` that ends beyond the range of `int` makes reading undefined as soon as it is reached, that is, if the members before it are accepted by themselves. |
| `C126_overflow_violated` | **C126 violated**: a text with a `QRect` that ends beyond the range of `int` makes reading overflow a signed integer, which is undefined behaviour, here in an element of a list. |
| `C128_breaks_violated` | **C128 violated**: whatever the classes, undefined behaviour follows from everything that is cut off and every `QRect` that ends beyond the range of `int`. |
| `C128_endless_violated` | **C128 violated**: six bytes, an unknown field with the length -6, make reading any message without a field 15 endless. |
| `C128_overflow_violated` | **C128 violated**: a `QRect` that ends beyond the range of `int` makes reading overflow a signed integer, which is undefined behaviour. |
| `C16_overrun_violated` | C16 is violated by the code. A fixed width value whose last bytes are missing is read beyond the end of the buffer, and so is a string that is longer than the rest of the input; a varint of eleven bytes shifts by more than the width of the type. |
| `C17_skip_violated` | C17 is violated by the code: an unknown length delimited field whose length is -6 as a 32 bit integer makes the decoder jump back to the beginning of the field, so that it never ends: whatever the budget, it is used up. Six bytes suffice, for every message type that has no field 15. |
| `C18_message_map_violated` | C18 is violated for targets with maps of messages: the input fails behind the record of the map, and storing what was decoded in a target that held something dereferences a null pointer. |
| `C18_negative_length_violated` | C18 is violated for negative lengths: the length of the second record is -10, the decoder goes back into the contents of the first one, an unknown field, takes what it finds there for field 1, sets it to 7 and fails on the next byte. No part of the input that is accepted gives this object. |
| `C19_message_map_violated` | With maps of messages the old contents can even make `deserialize` dereference a null pointer: the old map `{1: {}}` is compared with the new map `{2: {}}` of the same size. On a new target the same input is decoded normally. |
| `C19_negative_zero_violated` | A target that held -0.0 still holds it after decoding the empty message, which sets the field to 0.0: the setter does not assign because the two compare equal. |
| `C20_recursive_violated` | Negation of C20: the message `message M { int32 a = 1; M b = 2; }` cannot be serialized; not even a default constructed one. The recursion never ends and throws no exception. |
| `C23_after_exception_violated` | C23 is violated after a caught exception: the failing `+=` has already changed the size, so that a following `-=` of the same count passes its check and moves the pointer in front of the container. |
| `C23_overflow_violated` | C23 is violated for huge counts: the size overflows before it is checked. |
| `C24_message_map_violated` | Negation of C24 for maps of messages: comparing `{1: {}}` with `{2: {}}` dereferences a null pointer. |
| `C24_null_entry_violated` | Negation of C24: the answer can be wrong. Two inputs, map entries with the keys 1 and 2 and without value, are decoded to two messages that are not the same and compare equal: the null pointer stored for the missing value is taken for the null pointer returned when a key is not found. |
| `C25_message_map_violated` | Negation of C25 for maps of messages: assigning over a message whose sub-message has another map of the same size dereferences a null pointer. |
| `C26_message_map_violated` | Negation of C26 for maps of messages: writing a sub-message property dereferences a null pointer when the old and the new message have maps of messages of the same size with different keys. |
| `C29_late_violated` | C29 does not extend to functions that are appended after the first call (a library that is loaded later): whatever the functions do, they never run, however often `qRegisterProtobufTypes()` is called. |
| `C30_unknown_plugin_violated` | C30 is violated for a serializer of a plugin that was never loaded: instead of an exception, a null pointer is dereferenced. This happens after every proper history. |
| `C32_empty_message_violated` | C32 is violated: the empty message behind a message in one chunk is not delivered, although both have arrived completely. |
| `C32_lost_header_violated` | C32 is violated: when a chunk ends 4 bytes behind the first frame, these bytes are dropped and the second message is lost. Both messages have arrived completely; the second chunk of 2 bytes makes the channel read behind the data. |
| `C32_short_chunk_violated` | C32 is violated: a first chunk of fewer than 4 bytes makes the channel read behind the received data. |
| `C32_wrong_size_violated` | C32 is violated: when a chunk ends 5 bytes behind the first frame, the size of the first message is used for the second one: of the 4 byte message the handler gets 2 bytes, and the other two become the start of the next frame. |
| `C34_late_abort_violated` | C34 is violated: `abort()` on a call that has finished emits a second signal and drops the data. |
| `C36_handler_subscribes_violated` | A handler that subscribes once more to its own stream breaks the loop over the handlers: undefined behaviour, whoever else has subscribed. |
| `C36_two_running_violated` | If the key is subscribed to again meanwhile, two requests for the same method and argument are running: a failure of C36 as well. |
| `C37_native_late_violated` | With the native channel a message that waits in the event loop is handed to the handlers after the stream was aborted. |
| `C37_restart_violated` | What is missing: a stream that waits to be restarted when the user aborts it, and to which the user keeps the reference, is restarted after it has finished; its handlers get messages again. |
| `C38_client_thread_violated` | The thread that is compared is the channel's, not the client's: from thread 2 a client that lives in thread 1 gets a new channel, and the call is not refused. |
| `C38_two_streams_violated` | What is missing: with two or more unfinished streams the loop over the streams runs past the end of the vector, which `abort` shrinks: undefined behaviour, in every history. |
| `C39_change_violated` | What is missing: changing the method (likewise client or argument) of an item whose subscription is running does not subscribe with the new value; it always disables the item. |
| `C39_destroyed_violated` | If the argument object is destroyed, the subscription goes on without an argument. |
| `C39_shared_violated` | Disabling one item stops another item that has the same subscription, and disables it. |
| `C40_native_violated` | Over the native channel nothing is emitted. |
| `C42_deep_enum_violated` | The name printed for an enumeration of a nested message outside that message denotes nothing: it is taken for an enumeration of a file. (The condition on the visibility in `C42_enum_partial`.) |
| `C42_inner_enum_violated` | The name printed for an enumeration of C in the class of a message nested in C denotes nothing: that class is not in the class of C. (The condition on M in `C42_enum_partial`.) |
| `C42_lower_violated` | If the name of the message that T is in starts with a small letter, the name printed for T denotes nothing: the namespace is printed with a capital where it is declared, and without where it is used. |
| `C42_shadow_violated` | If a message nested in M has the name of a message of the package, the name printed for the latter in the class of M, which is right in the namespace of the package, is looked up to be the nested one. |
| `C43_extra_violated` | If other options follow, the namespace is the whole rest of the text, and with a second EXTRA_NAMESPACE there is none. |
| `C43_twice_violated` | Two EXTRA_NAMESPACE options cancel each other. |
| `C44_capital_violated` | Two messages whose names differ in the case of the first letter get classes with the same name. |
| `C44_unused_violated` | A nested message that no field of the message it is in uses gets no class, and neither does anything nested in it, if the message it is in has fields. |
| `C45_color_violated` | An invalid colour comes back as opaque black or whatever its components are, and a colour with 16 bits per component loses the lower 8. |
| `C45_null_time_violated` | A null time comes back as midnight. |
| `C45_polygon_null_violated` | A polygon message with a null element, which a program can build, is dereferenced: undefined. |
| `C45_rect_edge_violated` | A rectangle that reaches the last coordinate: the conversion back overflows, which is undefined. |
| `C45_utc_violated` | A date-time in UTC comes back as the same time of day in the local zone. |
| `C46_instant_violated` | What is missing: for every other instant, the Timestamp stands for a different one. |
| `C46_overflow_violated` | A Timestamp from the network can make the conversion overflow. |
| `C47_bool_list_violated` | **C47 violated**: a repeated bool field is written as a name without value, whatever it contains. |
| `C47_empty_message_violated` | **C47 violated**: for every message type without fields the output is a closing brace. |
| `C47_enum_violated` | **C47 violated**: enumeration values without a name are all written as the empty text, so that different messages have the same output. |
| `C47_injection_violated` | **C47 violated**: a text can add members of the sender's choice to the document. For all texts `a`, `b`, `c` without special characters, a message whose one string field holds `a","b":"c` is written as a document with two members. |
| `C47_nan_violated` | **C47 violated**: an infinite number or NaN, which Qt prints with letters, is written as it is. |
| `C47_quote_violated` | **C47 violated**: a quote in a text is not escaped, and the output is not a JSON document. |
| `C47_recursive_violated` | **C47 violated**: when each type of a set has a singular field of a type of the set, serialization of a message of such a type never returns. |
| `C48_index_violated` | An index outside of the list is not answered with null but undefined, in every state. |
| `C48_twice_violated` | What is missing: an object that is in the list twice is deleted twice when the list is cleared. |
| `C50_early_return_violated` | C50 is violated: one thread's call has returned while no registration function has run yet, because another thread has set the flag and has not begun the loop. |
| `C50_twice_violated` | C50 is violated: two threads that both read the flag before either sets it run every registration function twice. |
| `C51_never_read_violated` | C51 is violated in every schema: reading a record of a repeated bool field ends with `std::bad_function_call`, whatever the payload. |
| `C51_never_serialized_violated` | C51 is violated in every schema: no object of a message type with a repeated bool field can be serialized, whatever its contents and also if the list is empty. |
| `C52_negative_length_violated` | C52 is violated: a frame with the length `2^32 - 6` (a negative `int`) makes the channel call the handler for ever. |
| `C53_serialize_violated` | C53 is violated: an exception of the serializer (as for a repeated bool field, C51) is not turned into a status. |
| `C54_order_violated` | Names that differ in case only: which one is sent depends on the order of the hash. |
| `C55_data_name_violated` | Two properties of one name: repeated M x = 1; string xData = 2, with QML support or without. |
| `C56_enum_signal_violated` | Negation of C56 for signals: an enumeration property of the target changes and no signal is emitted. |
| `C56_message_map_violated` | Negation of C56: sub-messages with maps of the same size and different keys dereference a null pointer. |
| `C56_source_signal_violated` | Negation of "signals are emitted only for changes" on the side of the source: a number that is 0 before and after. |
| `C57_lost_violated` | Negation of C57: one object, not owned by JavaScript, is set in two messages; when the first is destroyed, the second loses its sub-message. |
| `C57_no_qml_leak_violated` | Negation of C57: in a build without QML, a sub-message that was read once is left when its message is destroyed. |
| `C57_shared_violated` | Negation of C57: in QML, `b.sub = a.sub`, where `a.sub` was never set; then `b` is destroyed and `a.sub` read: the object was deleted with `b`. |
| `C58_case_violated` | Two messages of a file whose names differ in case are written to one header. |
| `C58_client_name_violated` | A message and the client of a service are written to one header if the message is named as the service with Client after it. |
| `C58_client_nested_violated` | A method whose parameter is of a nested type: the header of its top-level message is not included. |
| `C58_client_source_violated` | No client can be compiled in multi-file mode: its source file includes a header with the name of the service, and what this opens, if anything, is not the header of the client. |
| `C58_enum_package_violated` | A field whose type is an enumeration in a message of another package: its header is looked for in the own package. |
| `C58_global_enum_violated` | A field of a nested message type before a field of an enumeration outside of messages: the header of enumerations is not included. Both fields put the empty text into the set of existing includes, so the second one is taken for printed. |
| `C58_hidden_violated` | A message of the own package hides a message of that name without a package. |
| `C58_nested_repeated_violated` | A repeated field of a nested message: the header of its type is not included. |
| `C58_no_folder_violated` | Without FOLDER, the header of a message of another package is written to the output directory and looked for in a directory. |
| `C59_client_qt_violated` | A method with an argument of a Qt type: the header of the clients includes a header for QtCore.proto, which is not generated. |
| `C59_grpc_name_violated` | A file x.proto with services and a file x_grpc.proto with messages are written to one header. |
| `C59_import_directory_violated` | Without FOLDER, an import from a directory is looked for in that directory, but its header is written to the output directory. |
| `C59_import_services_violated` | An imported file with services only has no header for messages, which the importing file includes all the same. |
| `C59_own_header_violated` | With FOLDER, the header of a file of package a.a is opened by the source file of the file of that name of package a. |
| `C60_client_stream_violated` | A stream of arguments is ignored: the methods for rpc x(stream M) returns (M) are those for rpc x(M) returns (M), and send one message. |
| `C60_hidden_violated` | service S { rpc call(M) returns (M); }: the method `call` of the client hides the function of the base class it calls. |
| `C60_lower_type_violated` | If the name of a message starts with a small letter, the name printed for it in the class of a client denotes nothing. |
| `C60_overloads_violated` | service S { rpc x(M) returns (stream M); rpc X(M) returns (stream M); }: different methods of the service, but the same methods are declared twice. |
| `C60_stream_name_violated` | service S { rpc streamX(M) returns (M); rpc X(M) returns (stream M); }: the same, for a call and a stream. |
| `C61_enum_name_violated` | enum E { zero = 0; } and a field of type E: the constructors initialize it with a constant that does not exist. |
| `C61_parent_violated` | message M { int32 parent = 1; }: a constructor has two parameters with one name. |
| `C61_qt_list_undefined_violated` | A repeated field of a Qt type, with QML: a method is declared that is not defined. |
| `C61_qt_list_violated` | A repeated field of a Qt type: the list type that is printed for it does not depend on the type (it is "QList<Repeated>"). |
| `C61_self_violated` | message M { M next = 1; }: two constructors take one M, so that messages of this type cannot be copied. |
| `C62_digit_violated` | message M { int32 _1 = 1; }: protoc's name of the field in camel case is "1", and so is the name of the getter. |
| `C62_function_violated` | service S { rpc delete(M) returns (M); }: the functions of the client are called "delete". |
| `C62_getter_violated` | message M { int32 class = 1; }: the getter is called "class". |
| `C62_package_violated` | package a.default: the namespace is a word of C++. |
| `C63_case_violated` | message M { enum E { A = 0; a = 1; } }: the names are distinct, the constants are not. |
| `C63_fixed_violated` | message M { int32 register_types = 1; }: the getter clashes with the static method of every class. |
| `C63_members_violated` | message M { M2 m = 1; int32 p = 2; }: a method and a data member are both called "m_p". |
| `C63_own_violated` | message M { message M { } }: the class has a member with its own name. |
| `C63_repeated_violated` | message M { message N { } message NRepeated { } }: the list of the first has the name of the second. |
| `C64_bool_keys_violated` | **C64 violated**: keys of type bool are all read as false: `{"a":{"true":1}}`. |
| `C64_bool_list_violated` | **C64 violated**: a repeated bool field is ignored: `{"a":[true]}` is read as the empty list. |
| `C64_enum_violated` | **C64 violated**: an unknown name of an enumeration value is read as -1 without an error. |
| `C64_escape_violated` | **C64 violated**: an escape sequence other than `\"` is not replaced. The document `{"a":"\n"}` stands for a line break and is read as a backslash and the letter n. |
| `C64_nan_violated` | **C64 violated**: "NaN", "Infinity" and "-Infinity", which stand for these values in the JSON mapping, are read as 0 without an error. |
| `C64_null_name_violated` | **C64 violated**: in a list, the name "null" of an enumeration value is read as the first value. |
| `C64_number_violated` | **C64 violated**: a JSON number that is no integer, or not in the range of the type, is read as 0 without an error. |
| `C64_type_violated` | **C64 violated**: a value of the wrong JSON type is ignored without an error, here a number for a text. |
| `C65_digits_violated` | **C65 violated**: floating point numbers are printed with 6 significant digits, and those that differ behind them are printed alike: the two messages are different, and the same bytes are written for both. |
| `C66_null_entry_violated` | **C66 violated**: the empty text for a message in a map, `{"h":{"1":""}}`, is read without an error as a null pointer, and comparing the object with one that has a message there, `{"h":{"1":{}}}`, dereferences it. |
| `C67_entry_violated` | Negation of C67 for a map entry with a field other than 1 and 2: a decoder has to skip field 3, the library takes it for the value. |
| `C67_merge_violated` | Negation of C67 for a singular sub-message in two records (a float field in the first, a bytes field in the second): protobuf merges them, the library keeps only the second. |
| `C67_unpacked_garbage_violated` | An unpacked list can also be accepted and read as other numbers, the bytes of the record that follows among them: field 3 with the element 1 and field 1 with the number 5. |
| `C67_unpacked_violated` | Negation of C67 for repeated numbers that are not packed: field 3 (`repeated sint32`) with the element -2, `18 03`. A reference decoder reads the list, the library throws. |
| `C67_wire_type_violated` | Negation of C67 for a record of a known field with another wire type (field 1, `int32`, as four bytes): a decoder has to skip it, the library reads a varint and takes the rest for records. |
| `C68_callback_leak_violated` | **C68 violated**: replies of the methods with callbacks are leaked. Whatever happens after the answer or the failure, as long as the receiver and the client exist, the reply exists, although the user holds no pointer to it. |
| `C68_client_first_violated` | **C68 violated**: the client is destroyed while the user holds a reply. Dropping the pointer, reading and aborting are undefined, although the user held a shared pointer all the time. |
| `C69_error_violated` | **C69 violated**: a failed call made by the method with a callback in C++: no callback ever runs, whatever happens later. |
| `C69_no_channel_violated` | **C69 violated**: without a channel the method with a callback never runs its callback: there is no call. |
| `C69_qml_no_channel_violated` | **C69 violated**: without a channel the methods for QML dereference a null pointer. |
| `C70_channel_gone_violated` | **C70 violated**: the channel is destroyed after the call was made and before its thread has begun: the thread uses a channel that does not exist, also when the user has aborted the call. |
| `C70_late_abort_violated` | **C70 violated**: aborting after the answer takes the data away and emits a second signal. |
| `C71_quit_http2_violated` | **C71 violated**: the application quits while a synchronous call over HTTP/2 waits, before any byte of the answer has arrived: the call returns with status Ok and an empty answer. |
| `C71_quit_native_violated` | **C71 violated**: the application quits while a synchronous call over the native channel waits: the call reads what its thread is writing. The channel is destroyed (by a handler that runs in the waiting loop) before the thread has begun: the thread uses it. |
| `C72_braces_violated` | **C72, negation.** After two opening braces on one line a nested message is taken for one of the file. |
| `C72_bracket_violated` | **C72, negation.** A square bracket in a comment hides the declarations after it. |
| `C72_comment_violated` | **C72, negation.** A line of a comment that begins with `message` makes the build expect files that are never written. |
| `C72_enums_only_violated` | **C72, negation.** A project that declares only enumerations is refused in multi-file mode, though the generator writes files for them. |
| `C72_false_name_violated` | **C72, negation.** A file whose only message is called `Off` has no files in the build, in single-file mode. |
| `C72_globalenums_violated` | **C72, negation.** `globalenums.cpp` is written but is not a part of the build, in multi-file mode: the definitions for enumerations outside of messages are not compiled. |
| `C72_one_line_violated` | **C72, negation.** The second of two messages on one line has no files in the build. |
| `C73_false_word_violated` | **C73, negation.** A namespace that is a false word of the build system, such as `off` or `No`, is dropped. |
| `C73_namespace_violated` | **C73, negation.** A part of the namespace between others that is an option word switches that option on, for example QML with the namespace `my::QML::types`. |
| `C74_abort_violated` | **C74, negation.** If the first slot of the client's errors aborts a call that is not over, aborting it never ends: the slot is called again before the client disconnects from the call. |
| `C74_aborts_reading_violated` | The same if the handler aborts the operation. |
| `C74_handler_violated` | **C74, negation.** If the data of an operation is no message and the first slot of the client's errors reads the operation again, or aborts it, `read()` waits for ever for the lock it holds. |
| `C74_loop_violated` | The same if the handler starts an event loop, for example that of a dialog that shows the error, and the next message of the stream arrives. |
| `C74_reread_violated` | C74 is violated: if the data cannot be decoded and a handler of the signal `error` reads the reply again, the program never goes on, whatever the data are and whatever comes after. |
| `C76_compressed_violated` | **C76 violated**: the requests say that deflate and gzip are accepted as encodings of the answer, but the byte that tells that an answer is compressed is ignored: the compressed bytes are read as if they were the message. |
| `C78_double_violated` | **C78, negation.** A `double` that is no number, or whose integer part the type does not have, is undefined behaviour. |
| `C78_precision_violated` | **C78, negation.** From 2^53 on integers do not survive the way to `double` and back: 2^53 + 1 comes back as 2^53, and the largest `fixed64` is undefined behaviour. |
| `C78_wraps_violated` | **C78, negation.** An integer that the type does not have becomes another one, with no sign of failure: the one that differs by a multiple of a power of two. |
| `C81_enum_map_violated` | C81 is violated: the values of a map have no handler if their type is an enum of the message that is used in no other way. |
| `C81_neighbour_enum_violated` | C81 is violated: an enum that is declared in a message which has no field of this type, and used in a field of another message, has no handler. |
| `C81_qt_map_violated` | C81 is violated: a map with values of a Qt type has no handler, although the Qt type has one; the handler is registered for another type than that of the property. |
| `C82_dollar_violated` | C82 is violated: the comment is printed as a template, so that a dollar sign begins the name of a variable, which does not exist. |
| `C82_end_violated` | C82 is violated: `*/` in a comment that is introduced by two slashes ends the comment of C++. |
| `C82_triple_slash_violated` | C82 is violated: of a comment of two lines, each introduced by three slashes, `/// First` and `/// Second`, the second line ends the comment of C++; what follows in this line is taken for code. |
| `C82_two_dollars_violated` | C82 is violated: two dollar signs in a comment become one, so that what the comment says is changed. |
| `C83_assign_violated` | C83 is violated: a status whose contents have been moved away cannot be given a new value by copying, although the program asks for nothing that has been moved away. |
| `C83_equality_violated` | C83 is violated: two statuses with different messages are equal to `==`. |
| `C84_extra_violated` | C84 is violated: with an extra namespace of two parts, as `a::b`, the module has a name that cannot be imported, for every type. |
| `C84_package_violated` | C84 is violated: a file without a package registers its types in a module without a name, which cannot be imported. |
| `C84_reserved_violated` | C84 is violated: package `a.new`. |
| `C84_underscore_violated` | C84 is violated: `message _M` in package `p`. |
| `C86_wide_rect_violated` | Rectangles wider than 2^31-1 have no message: the library computes their width with signed overflow, which is undefined. |
| `C87_native_channel_violated` | Also missing: if only the client holds a native channel and a stream is running, the destruction itself is undefined, because the worker thread goes on using the channel. With a channel that is held elsewhere the same program is defined. |
| `C87_reference_violated` | What is missing: a reference to a stream that the user keeps is useless after the destruction of the client. Whatever happens, `abort()` is undefined then, and so is giving up the last reference, which does not need any further use of the stream. |
| `C87_scope_violated` | The shortest such program: subscribe, destroy the client, let the returned pointer go out of scope. |
| `C88_deadlock_violated` | Two threads that call a client of each other at the same time wait for each other forever: whatever happens then, neither call returns. |
| `C88_nested_violated` | In particular a call does not return when its answer arrives: a handler that runs while it waits makes a second call; the answer to the first one arrives; as long as the second one is not answered, the first one does not return. |
| `C89_abort_violated` | Even a subscriber that is told about the answer may read something else: if the call is aborted while the signal is queued, the callback for the answer runs and `read` decodes no data, whatever the server has answered; the callback for the error runs as well. |
| `C89_between_violated` | The same for a failure that arrives between the two statements of `subscribe`: the subscriber is connected to the end of the call, and the failure is not reported to it. |
| `C89_lost_violated` | C89 is violated for calls made in other threads: the answer may arrive between the return of the call and the subscription. Then the callbacks never run, whatever happens afterwards, although the caller subscribes right after the call. |
| `C90_nested_violated` | C90 is violated in the thread of the stream as well: if a message arrives while a handler of the one before waits in an event loop, for example in a synchronous call, the first one is never read and the second one is read twice. |
| `C90_skipped_violated` | C90 is violated for readers in other threads: of two messages that arrive before the other thread gets to its event loop, the first one is never read, and the second one is read twice, in every such case. |
| `C91_attach_violated` | **C91 fails when the channel is replaced.** The thread of the client attaches a second channel, as documented, while another thread begins a call: the member that holds the channel, a `std::shared_ptr`, is read and written at the same time. |
| `C91_elsewhere_violated` | **C91 fails for the table of streams when a channel is attached in another thread.** `attachChannel` accepts this if the channel was created in that thread: it compares the thread of the channel, not that of the client, with the current one. |
| `C91_read_violated` | **C91 fails for the same reason when a reply is read in another thread.** |
| `C92_async_violated` | The shortest such program: attach a channel without keeping it, make an asynchronous call, attach another channel. |
| `C92_dangling_violated` | A synchronous call that has got its answer but waits for a loop inside it uses the deleted network reply when it returns: undefined. |
| `C92_lost_violated` | C92 is violated: whenever an HTTP/2 channel is destroyed while a request of it is running, the call never ends, in every state and whatever happens afterwards: an asynchronous call emits neither `finished` nor `error`, a synchronous one does not return. |
| `C92_native_violated` | Over the native channel a call whose thread has not begun yet is given a destroyed channel: undefined. |
| `C92_timer_violated` | The same without any change of the channel: if the timer of the outer call, six seconds after its start, runs out while a call made inside it is still waiting, the network reply of the outer call is deleted although the answer has not been taken from it. |
| `C93_always_violated` | **C93 is violated for every oneof with a message or a number of fixed width among its members**: whatever the program has set, even nothing at all, a peer sees a member set. |
| `C93_default_violated` | **C93 is violated for members set to their default**: a peer does not see a member that the program has set to 0, `false` or a null string: nothing is written for it. |
| `C93_hidden_violated` | **C93 is violated whatever is set**: a member that is written before such a member, in the order of the table of fields, is never seen: the message or number of fixed width, which the program has not touched, is seen instead, or another member behind it. |
| `C93_read_violated` | **C93 is violated when reading**: of an input with records of two members, which a peer may send (it merges messages, or changes its mind), the last one counts; the library has both set. |
| `C93_two_violated` | **C93 is violated by programs that set two members**: nothing unsets the first one, both are written, and a peer sees only one of them, here the one that was set first. (`setE` was called first, then `setD`.) |
| `C94_comment_violated` | C94 is violated: a comment with the end of a comment in it leaves its rest in the header as code; here there is an unmatched bracket. |
| `C94_json_name_violated` | C94 is violated: JSON names are printed between quotes as they are; with the option `json_name = "a\"b"` the literal does not end. |
| `C94_keyword_violated` | C94 is violated: a field that is called `class` or `namespace`, which protobuf allows, makes a header that is no C++. |
| `C96_enum_signal_violated` | Negation of "a property that changes emits its signal" for moves: the generated move assignment of `message Pair { Outer.E e = 1; int32 n = 2; }` gives the target another enumeration, and the target emits no signal at all. |
| `C96_message_map_violated` | Negation of C96 for maps of messages: the generated `==` of `message Maps { map<int32, Nothing> m = 1; }` dereferences a null pointer for the messages `{1: {}}` and `{2: {}}`. |
| `C96_parent_violated` | Negation of C96 for fields called "parent": the constructor generated for `message Node { int32 parent = 1; }` that takes the field has two parameters of one name, which is no C++. |
| `C97_enum_violated` | C97 is violated: two fields of an enumeration of their message; the preprocessor leaves both declarations of `pkg::sub::Two::E`. |
| `C97_twice_violated` | C97 is violated whenever two fields of a message have the type of one of its own enumerations: the header declares this type twice. |
| `C98_client_violated` | C98 is violated: if a handler destroys the client while a synchronous call of it waits, the call uses the destroyed client when the answer, or the failure, arrives. |
| `C98_format_violated` | C98 is violated: if a handler attaches a channel with another serializer while a synchronous call waits, the answer, which came through the old channel and is in its format, is read with the serializer of the new one. |
| `C98_object_violated` | C98 is violated: if a handler that runs while a synchronous call waits destroys the object for the reply, the answer is written through a null pointer, for every client, argument and answer. |
| `C98_read_format_violated` | C98 is violated in the same way for replies of asynchronous calls. |
| `C99_extra_namespace_violated` | In multi-file mode with an extra namespace, two messages that use each other: the forward declarations are not in the extra namespace. Without it, they can be used (`good`). |
| `C99_later_enum_violated` | In single-file mode, a field whose type is an enumeration of a message that comes later in the file, or of the message that the one with the field is in: no header with this can be compiled. |
| `C99_mutual_lists_violated` | In multi-file mode, two messages with repeated fields of each other's type: neither header can be compiled. |
| `C99_outer_enum_violated` | The same in multi-file mode: an enumeration of a message that comes later in the same header, as the message that the one with the field is in. |
| `C99_own_list_violated` | In multi-file mode, a message with a repeated field of its own type: no header with this can be compiled, as the name of its list type comes after the class. (In single-file mode it is declared before.) |
| `C99_sibling_violated` | In multi-file mode, a nested message with a field whose type is a message that is nested beside it and comes later: there is no forward declaration. |

Seen while reading, without a theorem: `QProtobufLazyMessagePointer::operator->` and its move assignment have no return statement
(generated code does not use them); the initializer of an
enumeration property uses the raw name of the first value; names that are C++ keywords are not escaped.
