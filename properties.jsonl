{"id": "C01", "title": "Binary round trip of whole messages", "statement": "For every message type whose singular sub-message fields do not form a cycle and which has no repeated bool field, and every message of that type, deserialize(serialize(m)) finishes without an exception and gives a message equal to m (unset sub-messages count as default ones, null entries of repeated/map fields are dropped), whatever order the field table is iterated in, as long as the encoding is below 2^31 bytes.", "quantifier": "all schemas, all messages of any depth and size, all field iteration orders", "why_tests_cant": "The message space is infinite (nesting, lists, maps, all integer values) and the field order of the unordered_map is unspecified; a test fixes one schema, value and order.", "anchors": ["src/protobuf/qprotobufserializer.cpp:serializeMessage/deserializeMessage/deserializeProperty", "src/protobuf/qprotobufserializer_p.h:serializeBasic/deserializeBasic", "src/protobuf/qabstractprotobufserializer.h:serialize/deserialize"]}
{"id": "C02", "title": "Varint scalar fields round trip and are canonical", "statement": "For every int32, int64, uint32, uint64 and bool value, decoding its encoding at any position of any buffer returns exactly that value and advances exactly past it; the encoding has no redundant trailing zero group and at most 5 (32 bit) or 10 (64 bit) bytes.", "quantifier": "all 2^32 / 2^64 values, all surrounding buffers", "why_tests_cant": "2^64 values times arbitrary surrounding bytes cannot be enumerated.", "anchors": ["src/protobuf/qprotobufserializer_p.h:serializeVarintCommon", "src/protobuf/qprotobufserializer_p.h:deserializeVarintCommon", "src/protobuf/qprotobufserializer_p.h:serializeBasic<unsigned>"]}
{"id": "C03", "title": "ZigZag fields round trip", "statement": "For every sint32 and sint64 value v the wire varint is 2v for v>=0 and -2v-1 for v<0, and decoding gives v back, including the minimum values.", "quantifier": "all sint32 and sint64 values", "why_tests_cant": "Boundary behaviour over 2^64 values with shifts of signed numbers; sampling misses the corner arithmetic.", "anchors": ["src/protobuf/qprotobufserializer_p.h:serializeBasic<signed>", "src/protobuf/qprotobufserializer_p.h:deserializeBasic<signed>"]}
{"id": "C04", "title": "Fixed width, float and double fields are bit exact", "statement": "fixed32/64, sfixed32/64, float and double are written as 4 or 8 little endian bytes and every bit pattern, NaN payloads and negative zero included, is read back unchanged.", "quantifier": "all 2^32 / 2^64 bit patterns, all surrounding buffers", "why_tests_cant": "Bit exactness must hold for all NaN payloads and positions.", "anchors": ["src/protobuf/qprotobufserializer_p.h:serializeBasic<floating point>", "src/protobuf/qprotobufserializer_p.h:serializeBasic<fixed>", "src/protobuf/qprotobufserializer_p.h:deserializeBasic<fixed>"]}
{"id": "C05", "title": "Field header codec", "statement": "For every field number 1..2^29-1 and wire type 0,1,2,5 the tag decodes to the same pair; a tag is accepted if and only if its field number is at least 1 and its wire type is one of these four.", "quantifier": "all field numbers, all wire types, all 2^32 tags", "why_tests_cant": "2^29 numbers x 8 wire types; acceptance is an iff over every tag value.", "anchors": ["src/protobuf/qprotobufserializer_p.h:encodeHeader", "src/protobuf/qprotobufserializer_p.h:decodeHeader"]}
{"id": "C06", "title": "Absent fields decode to defaults and default integers are not written", "statement": "A field not present on the wire has its proto3 default after deserialize; serialize writes no bytes for zero integers, false, zero enums, null strings/bytes and empty lists and maps, and always writes float, double and fixed fields.", "quantifier": "all schemas, all messages, all fields", "why_tests_cant": "Must hold for every combination of set and unset fields of every schema.", "anchors": ["src/protobuf/qprotobufserializer_p.h:serializeBasic", "src/protobuf/qprotobufserializer_p.h:serializeWrapper", "src/protobuf/qabstractprotobufserializer.h:deserialize"]}
{"id": "C07", "title": "Unknown fields are skipped without effect", "statement": "Inserting, between the records of any valid encoding, any number of well formed records with field numbers the receiver does not know, at any positions, leaves the result of deserialize unchanged.", "quantifier": "all schemas, all messages, all unknown records (varint of any length, fixed32, fixed64, length delimited below 2^31), all interleavings", "why_tests_cant": "Interleavings and payloads are unbounded.", "anchors": ["src/protobuf/qprotobufserializer.cpp:deserializeProperty", "src/protobuf/qprotobufserializer.cpp:skipSerializedFieldBytes", "src/protobuf/qprotobufserializer.cpp:skipVarint", "src/protobuf/qprotobufserializer.cpp:skipLengthDelimited"]}
{"id": "C08", "title": "Records are applied left to right", "statement": "deserialize of any concatenation of well formed records equals the left-to-right application of a per-record rule to the default message: scalars and sub-messages are replaced by the last record, repeated strings/bytes/messages/enums are appended to, map entries are inserted with the last value winning.", "quantifier": "all schemas, all finite record sequences", "why_tests_cant": "Histories of records are unbounded and include repeats in any order.", "anchors": ["src/protobuf/qprotobufserializer.cpp:deserializeMessage", "src/protobuf/qprotobufserializer.cpp:deserializeProperty", "src/protobuf/qabstractprotobufserializer_p.h:deserializeList/deserializeMap/deserializeObject"]}
{"id": "C09", "title": "Field order does not matter", "statement": "Permuting the records of different fields in an encoding (keeping the relative order of records of the same field) does not change the decoded message.", "quantifier": "all schemas, all record sequences, all such permutations", "why_tests_cant": "Factorially many orders; the sender's order is an unordered_map iteration order.", "anchors": ["src/protobuf/qprotobufserializer.cpp:serializeMessage", "src/protobuf/qprotobufserializer.cpp:deserializeMessage"]}
{"id": "C10", "title": "Repeated fields keep every element in order", "statement": "For every repeated scalar, string, bytes, enum and message field (null message pointers excepted) the decoded list has the same length, elements and order as the encoded one, zero elements included.", "quantifier": "all list lengths and contents for every element type the library supports", "why_tests_cant": "Unbounded lists; zero elements use a separate code path.", "anchors": ["src/protobuf/qprotobufserializer_p.h:serializeListType", "src/protobuf/qprotobufserializer_p.h:deserializeList", "src/protobuf/qabstractprotobufserializer_p.h:serializeList/deserializeList", "src/protobuf/qprotobufserializer.cpp:serializeEnumList/deserializeEnumList"]}
{"id": "C11", "title": "Packed fields split into several records are concatenated", "statement": "As protobuf requires, when a packed repeated scalar field arrives in several records their elements are concatenated.", "quantifier": "all packed scalar lists and all ways of splitting them into records", "why_tests_cant": "All splits of unbounded lists.", "anchors": ["src/protobuf/qprotobufserializer_p.h:deserializeList"]}
{"id": "C12", "title": "Map fields round trip and duplicates resolve to the last entry", "statement": "For every map with unique keys of any supported key and value kind, decoding gives the same key/value pairs; an entry without key or value uses the default; a repeated key keeps the last value.", "quantifier": "all maps, all key kinds, scalar, enum and message values", "why_tests_cant": "Unbounded maps and arbitrary key/value combinations.", "anchors": ["src/protobuf/qabstractprotobufserializer_p.h:serializeMap/deserializeMap", "src/protobuf/qprotobufserializer.cpp:serializeMapPair", "src/protobuf/qprotobufserializer.cpp:deserializeMapPair"]}
{"id": "C13", "title": "Enum values round trip, unknown numbers included", "statement": "Every 32 bit enum number, negative and undeclared numbers included, is written as a sign extended varint and read back unchanged, alone and inside lists.", "quantifier": "all 2^32 enum numbers, all lists", "why_tests_cant": "Too many values; undeclared values are never covered by tests.", "anchors": ["src/protobuf/qprotobufserializer.cpp:serializeEnum/deserializeEnum", "src/protobuf/qabstractprotobufserializer_p.h:serializeEnum/deserializeEnum"]}
{"id": "C14", "title": "Malformed tags are rejected with invalid_argument", "statement": "Whenever deserialize reaches a tag with field number 0 or wire type 3, 4, 6 or 7, it throws std::invalid_argument, whatever precedes or follows.", "quantifier": "all inputs whose first undecoded tag is invalid, all schemas and prefixes", "why_tests_cant": "All prefixes and suffixes of arbitrary bytes.", "anchors": ["src/protobuf/qprotobufserializer.cpp:deserializeProperty", "src/protobuf/qprotobufserializer_p.h:decodeHeader"]}
{"id": "C15", "title": "Truncated varints are reported, never accepted", "statement": "If the input ends inside a varint of at most 9 bytes (tag, value or length) deserialize throws std::out_of_range instead of succeeding.", "quantifier": "all valid prefixes, all truncated varints up to 10 bytes", "why_tests_cant": "All cut points of all encodings.", "anchors": ["src/protobuf/qprotobufselfcheckiterator.h:operator++", "src/protobuf/qprotobufserializer_p.h:deserializeVarintCommon", "src/protobuf/qprotobufserializer.cpp:skipVarint"]}
{"id": "C16", "title": "Decoding arbitrary bytes never reads outside the buffer", "statement": "deserialize on any byte string either succeeds or throws; it performs no read outside the byte array and no undefined operation.", "quantifier": "all byte strings, all schemas", "why_tests_cant": "Arbitrary adversarial input.", "anchors": ["src/protobuf/qprotobufserializer_p.h:deserializeLengthDelimited", "src/protobuf/qprotobufserializer_p.h:deserializeBasic<fixed>", "src/protobuf/qprotobufserializer_p.h:deserializeVarintCommon", "src/protobuf/qprotobufselfcheckiterator.h:operator+="]}
{"id": "C17", "title": "Decoding arbitrary bytes terminates", "statement": "deserialize on any byte string finishes (successfully or with an exception) after at most one record per input byte.", "quantifier": "all byte strings, all schemas", "why_tests_cant": "Termination for all inputs cannot be tested.", "anchors": ["src/protobuf/qprotobufserializer.cpp:deserializeMessage", "src/protobuf/qprotobufserializer.cpp:skipLengthDelimited", "src/protobuf/qprotobufselfcheckiterator.h:operator+="]}
{"id": "C18", "title": "After a failed deserialize the object holds the fields decoded before the failure", "statement": "When deserialize throws, the target message equals the default message with exactly the completely processed records before the failing one applied; nothing of the failing record and nothing of the old contents remains.", "quantifier": "all inputs on which deserialize throws, all old contents", "why_tests_cant": "All failure points of all inputs.", "anchors": ["src/protobuf/qabstractprotobufserializer.h:deserialize"]}
{"id": "C19", "title": "deserialize forgets the previous contents of its target", "statement": "The message after deserialize (success or exception) does not depend on what the target object held before.", "quantifier": "all inputs, all previous contents", "why_tests_cant": "All pairs of previous states.", "anchors": ["src/protobuf/qabstractprotobufserializer.h:deserialize"]}
{"id": "C20", "title": "serialize terminates", "statement": "serialize finishes for every message of every schema.", "quantifier": "all schemas (recursive ones included), all finite messages", "why_tests_cant": "Termination over all schemas; recursive types create their children lazily while being read.", "anchors": ["src/protobuf/qprotobufserializer.cpp:serializeMessage", "src/protobuf/qprotobuflazymessagepointer.h:get", "src/generator/templates.cpp:GetterPrivateMessageDefinitionTemplate"]}
{"id": "C21", "title": "Output is readable by a proto3 reference decoder", "statement": "A decoder written from the protobuf encoding specification (tags, 64 bit varints truncated to the field width, packed and unpacked repeated fields, map entries as messages) reads the output of serialize as the same message.", "quantifier": "all schemas, all messages", "why_tests_cant": "Interoperability must hold for every value; tests only compare a few byte strings.", "anchors": ["src/protobuf/qprotobufserializer.cpp:serializeMessage"]}
{"id": "C22", "title": "Integers written by other implementations are accepted", "statement": "int32 values and enums encoded by a conforming peer as 10 byte sign extended varints, and varints padded with redundant zero groups up to 10 bytes, decode to the same value.", "quantifier": "all 32/64 bit values, all paddings up to 10 bytes", "why_tests_cant": "All values times all paddings.", "anchors": ["src/protobuf/qprotobufserializer_p.h:deserializeVarintCommon", "src/protobuf/qprotobufserializer_p.h:deserializeBasic<int32>"]}
{"id": "C23", "title": "The checked iterator never silently leaves its container", "statement": "Any sequence of ++, --, +=, -= with non-negative counts, copies and assignments on the self checking iterator either throws std::out_of_range or leaves it between the begin and the end of the container, with size() equal to the bytes left.", "quantifier": "all containers, all operation sequences, all counts", "why_tests_cant": "Unbounded histories.", "anchors": ["src/protobuf/qprotobufselfcheckiterator.h"]}
{"id": "C24", "title": "Message equality", "statement": "The generated == is an equivalence relation on messages without NaN and null list/map entries, an unset sub-message equals a default one, and != is its negation.", "quantifier": "all messages of all schemas", "why_tests_cant": "Transitivity and symmetry are statements about all pairs and triples.", "anchors": ["src/generator/templates.cpp:EqualOperator*", "src/protobuf/qprotobuflazymessagepointer.h:operator==", "src/protobuf/qtprotobuftypes.h:repeatedValueCompare"]}
{"id": "C25", "title": "Copying and assigning messages", "statement": "A copy constructed message and an assigned-to message compare equal to their source, whatever the target held before; later changes to a singular field of the copy do not change the source.", "quantifier": "all messages, all previous targets", "why_tests_cant": "All pairs of messages.", "anchors": ["src/generator/templates.cpp:CopyFieldTemplate/AssignComplexFieldTemplate", "src/generator/messagedefinitionprinter.cpp:printCopyFunctionality"]}
{"id": "C26", "title": "Setters notify exactly on change", "statement": "In every history of property writes to a generated message the change signal of a property is emitted exactly when its value changes, and reads return the last value written.", "quantifier": "all histories of setter calls on all properties", "why_tests_cant": "Unbounded call histories.", "anchors": ["src/generator/templates.cpp:SetterTemplate*"]}
{"id": "C27", "title": "Handler registry is race free", "statement": "In every interleaving of any number of threads registering and looking up handlers, a registration never overlaps another registration or a lookup, and a lookup returns the handlers of the last completed registration for that type or the empty ones.", "quantifier": "all numbers of threads, all interleavings, all histories", "why_tests_cant": "Schedules are unbounded; races do not show reliably in tests.", "anchors": ["src/protobuf/qabstractprotobufserializer.cpp:HandlersRegistry"]}
{"id": "C28", "title": "Handler registry never deadlocks", "statement": "From every reachable state of the registry in which some thread is inside an operation, some thread can take a step; every operation uses a bounded number of steps and returns what it acquired.", "quantifier": "all numbers of threads, all interleavings", "why_tests_cant": "Deadlock freedom quantifies over all schedules.", "anchors": ["src/protobuf/qabstractprotobufserializer.cpp:HandlersRegistry"]}
{"id": "C29", "title": "Type registration runs once", "statement": "However often qRegisterProtobufTypes() is called after static initialisation, every registered function runs exactly once, in registration order.", "quantifier": "all call counts, all registration lists", "why_tests_cant": "Unbounded call histories.", "anchors": ["src/protobuf/qtprotobuf.cpp:qRegisterProtobufTypes"]}
{"id": "C30", "title": "Serializer plugin registry", "statement": "In every history of plugin loads the first loaded implementation of a plugin name stays in use, lookups never change the answers of other lookups, and lookups of unknown plugins or serializers fail with an exception or an empty answer.", "quantifier": "all histories of loads and lookups", "why_tests_cant": "Unbounded histories, third party plugins.", "anchors": ["src/protobuf/qprotobufserializerregistry.cpp"]}
{"id": "C31", "title": "gRPC request framing", "statement": "The body posted for a call with any argument bytes is a zero byte, the 4 byte big endian length and the bytes; the receiver's size computation recovers exactly the frame size.", "quantifier": "all argument byte strings below 2^31-5 bytes", "why_tests_cant": "All lengths.", "anchors": ["src/grpc/qgrpchttp2channel.cpp:post", "src/grpc/qgrpchttp2channel.cpp:getExpectedDataSize"]}
{"id": "C32", "title": "Stream reassembly delivers every message once in order", "statement": "For every list of server messages and every way of cutting the HTTP/2 body into readyRead chunks, the stream handler receives exactly those messages in that order.", "quantifier": "all message lists, all chunkings", "why_tests_cant": "All chunkings of unbounded streams; chunk sizes depend on the network.", "anchors": ["src/grpc/qgrpchttp2channel.cpp:stream (readyRead lambda)"]}
{"id": "C33", "title": "Unary reply status mapping", "statement": "Every network error other than NoError gives a non-Ok status with no data; with no network error the status is the grpc-status header (Ok when absent) and data is delivered only for Ok, with the 5 byte prefix removed.", "quantifier": "all network error codes, all headers, all bodies", "why_tests_cant": "Every error x header x body combination.", "anchors": ["src/grpc/qgrpchttp2channel.cpp:processReply", "src/grpc/qgrpchttp2channel.cpp:StatusCodeMap"]}
{"id": "C34", "title": "An asynchronous call completes exactly once", "statement": "In every ordering of reply completion, abort, timeout and channel destruction a call reply emits in total at most one of finished or error from the channel, and emits one as soon as the reply completes or is aborted.", "quantifier": "all event orderings and repetitions", "why_tests_cant": "Event schedules are unbounded.", "anchors": ["src/grpc/qgrpchttp2channel.cpp:call (async)", "src/grpc/qgrpccallreply.cpp:abort", "src/grpc/qgrpchttp2channel.cpp:abortNetworkReply"]}
{"id": "C35", "title": "Deserialization failures of replies become statuses", "statement": "tryDeserialize never lets an exception of the serializer escape: it reports Ok iff deserialization succeeded and otherwise InvalidArgument, OutOfRange, Internal or Unknown according to the failure, and emits the client error.", "quantifier": "all reply bodies, all serializers, all exceptions derived from std::exception", "why_tests_cant": "All reply bodies.", "anchors": ["src/grpc/qabstractgrpcclient.h:tryDeserialize"]}
{"id": "C36", "title": "Equal subscriptions share one stream", "statement": "In every history of subscribe and finish events there is at most one active stream per (method, argument); subscribing again returns the existing stream, and every message of a stream is handed to every subscribed handler exactly once, in arrival order.", "quantifier": "all histories of subscriptions, messages and finishes", "why_tests_cant": "Unbounded histories.", "anchors": ["src/grpc/qabstractgrpcclient.cpp:stream", "src/grpc/qgrpcstream.cpp", "src/grpc/qgrpcstream.h:operator=="]}
{"id": "C37", "title": "Finished streams are forgotten and not restarted", "statement": "After a stream emitted finished (server end or abort) the client holds no reference to it, hands it no further messages and never restarts it; after an error it is restarted while it is still active.", "quantifier": "all histories of stream events, timers and user references", "why_tests_cant": "Timer/abort interleavings.", "anchors": ["src/grpc/qabstractgrpcclient.cpp:stream"]}
{"id": "C38", "title": "Attaching a new channel stops all streams of the old one", "statement": "attachChannel from the client's thread aborts every active stream and installs the channel; from another thread it throws and changes nothing.", "quantifier": "all sets of active streams, all threads", "why_tests_cant": "Number of active streams is unbounded and the container is modified while iterated.", "anchors": ["src/grpc/qabstractgrpcclient.cpp:attachChannel"]}
{"id": "C39", "title": "QML stream item follows its properties", "statement": "For every sequence of property changes of the QML stream item, it has a running subscription exactly when it is enabled and client, method and argument are set, and a change of client, method or argument while enabled leads to a subscription with the new values.", "quantifier": "all sequences of property writes and stream events", "why_tests_cant": "Unbounded histories of property writes.", "anchors": ["src/grpc/quick/qquickgrpcstream.cpp", "src/grpc/quick/qquickgrpcstream_p.h"]}
{"id": "C40", "title": "Server end of a stream is reported by both channels", "statement": "When the server closes a stream with status Ok the stream emits finished exactly once, over the HTTP/2 channel and over the native channel.", "quantifier": "all histories of messages followed by an Ok close", "why_tests_cant": "All histories.", "anchors": ["src/grpc/qgrpcchannel.cpp:stream", "src/grpc/qgrpchttp2channel.cpp:stream (finish lambda)"]}
{"id": "C41", "title": "Generated field table", "statement": "For every message definition the generated ordering table maps each field number to the property generated for that field, and to no other, so reading field n always reads the property declared for n.", "quantifier": "all message definitions (any number and kinds of fields)", "why_tests_cant": "All schemas.", "anchors": ["src/generator/messagedefinitionprinter.cpp:printFieldsOrdering", "src/generator/messagedeclarationprinter.cpp:printProperties"]}
{"id": "C42", "title": "Generated namespaces and scopes", "statement": "Splitting a full name by dots and joining the parts with a separator is lossless for names without empty components, and the scope-relative name the generator prints denotes the same entity as the full name.", "quantifier": "all full names, all scopes", "why_tests_cant": "All name strings.", "anchors": ["src/generator/utils.h:split", "src/generator/generatorcommon.cpp:getNamespacesString/getScopeNamespacesString", "src/generator/generatorcommon.h:getNestedNamespaces"]}
{"id": "C43", "title": "Generator options", "statement": "For every options string made of known options, each in any order, exactly the named options are enabled, and EXTRA_NAMESPACE takes exactly its own value.", "quantifier": "all option strings", "why_tests_cant": "All combinations and orders of options.", "anchors": ["src/generator/generatoroptions.cpp:parseFromEnv"]}
{"id": "C44", "title": "Every nested message is generated exactly once", "statement": "For every message tree of a file each message (top level or nested, map entries excluded) gets exactly one generated class.", "quantifier": "all trees of nested messages, all field references", "why_tests_cant": "All trees.", "anchors": ["src/generator/generatorcommon.cpp:iterateMessages/iterateNestedMessages/hasNestedMessages", "src/generator/messagedeclarationprinter.cpp"]}
{"id": "C45", "title": "Qt value types round trip through their messages", "statement": "Converting a QSize, QPoint, QRect, vector, matrix, transform, quaternion, polygon, colour, UUID, character, date or time to its message and back gives the same value, and so does sending it as a field of a message.", "quantifier": "all values of each Qt type", "why_tests_cant": "Value spaces are huge; component swaps only show for asymmetric values.", "anchors": ["src/qttypes/qtprotobufqttypes.cpp:convert"]}
{"id": "C46", "title": "Timestamp conversion", "statement": "For every QDateTime, converting to google.protobuf.Timestamp and back gives the same instant (to the millisecond), and the Timestamp is the protobuf representation (seconds and nanoseconds with 0 <= nanos < 10^9).", "quantifier": "all millisecond instants, negative ones included", "why_tests_cant": "All 2^64 instants, sign corner cases of division.", "anchors": ["src/generator/messagedefinitionprinter.cpp"]}
{"id": "C47", "title": "JSON output is a JSON document", "statement": "serialize with the JSON serializer produces, for every message, a text that is a JSON object with one member per non-skipped field.", "quantifier": "all schemas, all messages, all string contents", "why_tests_cant": "All string contents and schemas.", "anchors": ["src/protobuf/qprotobufjsonserializer.cpp"]}
{"id": "C48", "title": "QML list property of repeated messages", "statement": "The QML list view of a repeated message field reports the number of elements, returns each element at its index, appends at the end and clears the field, for every sequence of these operations.", "quantifier": "all operation sequences", "why_tests_cant": "Unbounded histories.", "anchors": ["src/protobuf/qqmllistpropertyconstructor.h"]}
{"id": "C49", "title": "Credential composition", "statement": "Combining channel and call credentials with | in either order keeps exactly both credential maps.", "quantifier": "all pairs of credential maps", "why_tests_cant": "All maps.", "anchors": ["src/grpc/qgrpccredentials.h"]}
{"id": "C50", "title": "Type registration from several threads", "statement": "When qRegisterProtobufTypes() returns in any thread, every registration function has run, and none runs twice, however many threads call it.", "quantifier": "all schedules of any number of threads", "why_tests_cant": "Schedules cannot be forced by a unit test.", "anchors": ["src/protobuf/qtprotobuf.cpp:qRegisterProtobufTypes"]}
{"id": "C51", "title": "Repeated bool fields are supported", "statement": "A message type with a repeated bool field can be serialized and deserialized like one with any other repeated scalar field.", "quantifier": "all schemas with a repeated bool field, all messages", "why_tests_cant": "All schemas and contents; no test schema has such a field.", "anchors": ["src/protobuf/qtprotobuf.cpp:qRegisterProtobufTypes", "src/protobuf/qprotobufserializer.cpp:serializeProperty"]}
{"id": "C52", "title": "Received stream data cannot hang the client", "statement": "Whatever bytes the server sends on a stream, in whatever chunks, the handling of each chunk ends and calls the handlers only finitely often.", "quantifier": "all byte strings, all chunkings, all states of the reassembly", "why_tests_cant": "The server is not under control of a unit test and the input space is infinite.", "anchors": ["src/grpc/qgrpchttp2channel.cpp:stream (readyRead lambda)"]}
{"id": "C53", "title": "Failed synchronous calls are reported exactly once", "statement": "A synchronous call returns a status; the client's error signal is emitted exactly once, with that status, if it is not Ok and never if it is Ok; Ok means that the reply object holds the deserialized answer.", "quantifier": "all channels, serializers, arguments and answers", "why_tests_cant": "Arbitrary channels, serializers and answers.", "anchors": ["src/grpc/qabstractgrpcclient.h:call/tryDeserialize/trySerialize", "src/grpc/qabstractgrpcclient.cpp:call"]}
{"id": "C54", "title": "Requests carry the protocol headers and the call credentials", "statement": "Every request of the HTTP/2 channel carries each fixed gRPC header exactly once and each call credential under its name with its value, and nothing else.", "quantifier": "all call credential maps", "why_tests_cant": "All maps of names and values.", "anchors": ["src/grpc/qgrpchttp2channel.cpp:post", "src/grpc/qgrpcuserpasswordcredentials.h"]}
{"id": "C55", "title": "Each field is one named property of the class", "statement": "The Q_PROPERTYs of a generated class have distinct names, and the property named like a field reads that field, so QML code finds the field under its name (without QML support a repeated message field has the name plus \"Data\").", "quantifier": "all message definitions, with and without QML support", "why_tests_cant": "All schemas: any combination of field names and types.", "anchors": ["src/generator/messagedeclarationprinter.cpp:printProperties", "src/generator/templates.cpp:RepeatedMessagePropertyTemplate"]}
{"id": "C56", "title": "Moving a message", "statement": "After target = std::move(source), or construction by move, the target has the contents the source had; the source stays a proper object of its class; moving an object to itself keeps its contents; a property of either object that changes emits its change signal, and the target emits none for a property that does not change.", "quantifier": "all schemas, all contents of both objects, whatever the memory of the constructed object held", "why_tests_cant": "All schemas and contents; moved-from states and self moves are rarely tested.", "anchors": ["src/generator/messagedefinitionprinter.cpp:printMoveSemantic", "src/generator/templates.cpp:Move*Template"]}
{"id": "C57", "title": "Life of sub-message objects", "statement": "Whatever messages are created, read, written and destroyed, and whatever objects QML sets, collects or deletes: no sub-message object is deleted twice or used after its deletion; a message keeps the sub-message it was given until it is replaced or deleted by its owner; when all messages are destroyed no object is left that the library had to delete.", "quantifier": "all histories of any length, any number of messages and objects, with and without QML", "why_tests_cant": "Histories and the moments of garbage collection are unbounded, and misuse of memory often shows no symptom.", "anchors": ["src/protobuf/qprotobuflazymessagepointer.h:QProtobufLazyMessagePointer", "src/generator/templates.cpp:SetterPrivateTemplateDefinitionMessageType"]}
{"id": "C58", "title": "Headers of multi-file mode", "statement": "In multi-file mode every message and service gets a header of its own that no other output overwrites; the header of a message includes the headers of all types its fields and the fields of its nested messages use; every include directive finds a generated header; source files include the header they belong to.", "quantifier": "all sets of files, packages, messages nested at any depth, services and field types, with and without FOLDER", "why_tests_cant": "All schemas spread over all sets of files; tests compile a few schemas.", "anchors": ["src/generator/multifilegenerator.cpp:Generate", "src/generator/multifilegenerator.cpp:findNestedDependency", "src/generator/generatorbase.cpp:printInclude", "src/generator/servicedeclarationprinterbase.cpp:printIncludes"]}
{"id": "C59", "title": "Headers of single-file mode", "statement": "In single-file mode a file with messages or enumerations gets one header for them and a file with services one for the services; the header of a file includes the headers of the files it imports, and source files include the header they belong to.", "quantifier": "all sets of files, names, directories and packages, with and without FOLDER", "why_tests_cant": "All directory layouts and packages; tests use a few.", "anchors": ["src/generator/singlefilegenerator.cpp:GenerateMessages", "src/generator/singlefilegenerator.cpp:GenerateServices", "src/generator/generatorbase.cpp:generateBaseName", "src/generator/utils.h:extractFileBasename"]}
{"id": "C60", "title": "Methods of generated clients", "statement": "The class generated for a service has, for every method of the service, methods that request the path /package.Service/Method, take a message of the input type and read the answer into a message of the output type; every method that is declared is defined; no two have the same signature; the calls in their bodies find the functions of the base class; the printed names of types denote the classes of the messages.", "quantifier": "all services, with any number and names of calls and streams, all input and output types, with and without QML", "why_tests_cant": "All services; tests generate a handful of clients.", "anchors": ["src/generator/clientdeclarationprinter.cpp:printClientMethodsDeclaration", "src/generator/clientdefinitionprinter.cpp:printMethods", "src/generator/generatorcommon.cpp:produceMethodMap", "src/generator/templates.cpp"]}
{"id": "C61", "title": "Constructors and definitions of generated classes", "statement": "A generated class has a constructor for every number of leading fields; after it the data members of these fields hold the arguments and all other fields hold the default values of protobuf; the parameters of a constructor have distinct names; a call with arguments of given types finds one constructor at most, also beside the copy constructor; every method declared without a body is defined, once.", "quantifier": "all messages, with any number and kinds of fields, all types of enumerations, with and without QML", "why_tests_cant": "All messages; tests generate a few and use some of their constructors.", "anchors": ["src/generator/messagedefinitionprinter.cpp: printConstructors, printInitializationList, printGetters", "src/generator/messagedeclarationprinter.cpp: printConstructors, printGetters, printSetters", "src/generator/generatorcommon.cpp"]}
{"id": "C62", "title": "Words of C++ in generated code", "statement": "No name that the generator declares (namespaces, classes, enumerations, constants, data members, methods, parameters, functions of clients) is a word of C++ or a macro of Qt, and each has the form of a C++ identifier.", "quantifier": "all names of packages, messages, fields, enumerations, services and methods that protoc accepts", "why_tests_cant": "All names; tests use the names somebody thought of.", "anchors": ["src/generator/generatorcommon.h: qualifiedName", "src/generator/utils.h: upperCaseName, lowerCaseName", "src/generator/templates.cpp"]}
{"id": "C63", "title": "Names declared in a generated class", "statement": "No name is declared twice in the class generated for a message: types, lists and constants have distinct names, none is the name of the class, methods are not called like types, constants, data members or the members that every class has; the constants have the numbers of the schema.", "quantifier": "all messages, with any fields, maps, enumerations and nested messages, with and without field numbers and QML", "why_tests_cant": "All combinations of names in a schema; tests use the names somebody thought of.", "anchors": ["src/generator/messagedeclarationprinter.cpp: printQEnums, printFieldEnum, printNested, printMaps, printClassMembers", "src/generator/enumdeclarationprinter.cpp", "src/generator/templates.cpp", "src/protobuf/qprotobufobject.h"]}
{"id": "C64", "title": "A JSON document is read as the message it stands for", "statement": "Reading a JSON document that stands for a message by the proto3 JSON mapping gives that message: members in any order, with white space, unknown members and null anywhere, numbers also as strings; a document with a value that is not allowed for a field is rejected.", "quantifier": "all message types and all JSON documents that stand for a message of the type", "why_tests_cant": "There are infinitely many documents for each message; tests contain the ones with a fixed order and layout.", "anchors": ["src/protobuf/qprotobufjsonserializer.cpp: deserializeMessage, deserializeObject, deserializeValue, deserializeList, deserializeMapPair, deserializeEnum, deserializeEnumList, deserializeListObject", "src/protobuf/qabstractprotobufserializer_p.h: deserializeList, deserializeMap", "src/protobuf/qabstractprotobufserializer.h: deserialize"]}
{"id": "C65", "title": "JSON round trip", "statement": "A message written by the JSON serializer and read back by it is the same message and compares equal to it.", "quantifier": "all message types and all messages of the type", "why_tests_cant": "Every message of every type; tests cover one field of each type with a few values.", "anchors": ["src/protobuf/qprotobufjsonserializer.cpp: deserializeMessage, deserializeObject, deserializeValue, deserializeList, deserializeMapPair, deserializeEnum, deserializeEnumList, deserializeListObject", "src/protobuf/qabstractprotobufserializer_p.h: deserializeList, deserializeMap", "src/protobuf/qabstractprotobufserializer.h: deserialize"]}
{"id": "C66", "title": "Reading arbitrary bytes as JSON is safe", "statement": "Whatever bytes are read as JSON: the call returns or throws an exception of the JSON library, it does not recurse without end, the object is an object of its class, fields that are not named in the document have their default values, unknown members mean nothing, and the object can be compared.", "quantifier": "all byte sequences, all message types, and all answers of the JSON library (for termination: that it returns parts shorter than the text)", "why_tests_cant": "All inputs, in particular malformed ones.", "anchors": ["src/protobuf/qprotobufjsonserializer.cpp: deserializeMessage, deserializeObject, deserializeValue, deserializeList, deserializeMapPair, deserializeEnum, deserializeEnumList, deserializeListObject", "src/protobuf/qabstractprotobufserializer_p.h: deserializeList, deserializeMap", "src/protobuf/qabstractprotobufserializer.h: deserialize"]}
{"id": "C67", "title": "What other implementations write is read as the same message", "statement": "For every encoding of a message that the protobuf format allows, deserialize reads the message that a decoder written from the protobuf encoding specification reads: records of known and unknown fields in any order, varints of any length, packed and unpacked numbers, merged sub-messages, map entries as messages.", "quantifier": "all schemas, all byte strings the reference decoder accepts", "why_tests_cant": "The peer is any protobuf implementation; tests contain a few byte strings made by hand or by the library itself.", "anchors": ["src/protobuf/qprotobufserializer.cpp: deserializeMessage, deserializeProperty, deserializeMapPair", "src/protobuf/qprotobufserializer_p.h: deserializeBasic, deserializeList, decodeHeader"]}
{"id": "C68", "title": "A reply exists while it is held and is freed afterwards", "statement": "A reply that user code holds through its shared pointer exists until the last copy is dropped, in every order of calls, answers, failures, aborts, event loop turns and destructions; and once a call has been answered and nobody holds the reply, the reply is deleted by the event loop.", "quantifier": "all histories of calls of generated methods, channel signals, pointer copies and drops, reads, aborts, destructions of receivers and of the client", "why_tests_cant": "Ownership is shared by the client, functors on connections and the user; tests run a few of the orders, and a leak or a use after the end does not fail them.", "anchors": ["src/grpc/qabstractgrpcclient.cpp: call", "src/grpc/qgrpccallreply.cpp: abort", "src/grpc/qgrpccallreply.h: subscribe", "src/generator/templates.cpp: ClientMethodDefinitionAsyncTemplate, ClientMethodDefinitionAsync2Template, ClientMethodDefinitionQmlTemplate"]}
{"id": "C69", "title": "Callbacks of generated methods run exactly once", "statement": "For each call made by a generated method with callbacks, exactly one callback runs and it runs once: the one for the answer, with the data of the answer, when the channel delivers one, and the one for errors when the call fails or cannot be made; no callback runs before.", "quantifier": "all histories of calls, channel signals with one signal per call, pointer operations and destructions of other receivers", "why_tests_cant": "Concerns every interleaving of several calls and every failure.", "anchors": ["src/generator/templates.cpp: ClientMethodDefinitionAsync2Template, ClientMethodDefinitionQmlTemplate, ClientMethodDefinitionQml2Template", "src/grpc/qgrpccallreply.h: subscribe", "src/grpc/qabstractgrpcclient.h: call"]}
{"id": "C70", "title": "Asynchronous calls over the native channel are answered once", "statement": "An asynchronous call over the native gRPC channel emits at most one signal and reports at most one error through the client; a call that is not aborted ends with the answer of the server: finished with the bytes of the answer or error with its status; an aborted call reports Aborted and no data, whatever the server answers; a destroyed call leaves no thread behind, and nothing undefined happens.", "quantifier": "all interleavings of the worker thread, event loop, user aborts, and destructions of reply and channel; all answers", "why_tests_cant": "A worker thread runs beside the event loop: a test sees one interleaving.", "anchors": ["src/grpc/qgrpcchannel.cpp: QGrpcChannelCall, QGrpcChannelPrivate::call, parseByteBuffer", "src/grpc/qgrpccallreply.cpp: abort", "src/grpc/qabstractgrpcclient.cpp: call"]}
{"id": "C71", "title": "Synchronous calls return the answer of the server", "statement": "A synchronous call returns only when the call has ended, with the status and the data of the answer, over either channel.", "quantifier": "all orders of what happens while the call waits in its event loop; all answers", "why_tests_cant": "The call runs a nested event loop in which everything else of the application can happen.", "anchors": ["src/grpc/qgrpcchannel.cpp: QGrpcChannelPrivate::call", "src/grpc/qgrpchttp2channel.cpp: QGrpcHttp2Channel::call"]}
{"id": "C72", "title": "The build expects the files that the generator writes", "statement": "For every project, the list of files that qtprotobuf_generate hands to the build system is the list of files that the generator writes for the same proto files and options.", "quantifier": "all proto texts, packages, names, options and numbers of files", "why_tests_cant": "The list is guessed from the text of the files by patterns: tests have a few texts.", "anchors": ["cmake/QtPreParseProtoFile.cmake", "cmake/QtProtobufGen.cmake: qtprotobuf_generate", "src/generator/multifilegenerator.cpp: Generate, GenerateAll", "src/generator/singlefilegenerator.cpp: Generate"]}
{"id": "C73", "title": "The options given to the build function reach the generator", "statement": "The generator runs with exactly the options and the extra namespace that qtprotobuf_generate is called with; MULTI implies FOLDER.", "quantifier": "all combinations of options and all namespaces", "why_tests_cant": "The options go through a text that is split again; a test has a few combinations.", "anchors": ["cmake/QtProtobufGen.cmake: qtprotobuf_generate", "src/generator/generatoroptions.cpp: parseFromEnv"]}
{"id": "C74", "title": "Reading and aborting replies returns whatever the error handlers do", "statement": "read() and abort() return for every data and for all slots connected to the errors of the client and of the operations, whatever operations these slots read or abort; a read returns what the serializer makes of the data and reports one error exactly if that fails; abort empties the data and reports Aborted once.", "quantifier": "all serializers, data, sets of slots and programs that read and abort", "why_tests_cant": "Slots run inside of the call that holds a lock; tests have slots that only set a flag.", "anchors": ["src/grpc/qgrpcasyncoperationbase_p.h: read, setData", "src/grpc/qgrpccallreply.cpp: abort", "src/grpc/qabstractgrpcclient.h: tryDeserialize", "src/grpc/qabstractgrpcclient.cpp: call"]}
{"id": "C75", "title": "Numbers converted through QVariant keep their value", "statement": "For each of int32, int64, sfixed32, sfixed64, fixed32 and fixed64 there are conversions to and from every C++ integer type and double, and to text. A conversion yields the same number if the target type has a value for it; a conversion to double yields a nearest number, a conversion from double cuts off the fraction.", "quantifier": "all pairs of types and all values", "why_tests_cant": "The number ranges are too large for tests, and the limits of double and of the sign lie at values tests seldom use.", "anchors": ["src/protobuf/qtprotobuf.cpp: registerBasicConverters, qRegisterProtobufTypes", "src/protobuf/qtprotobuftypes.h: transparent"]}
{"id": "C76", "title": "A call over HTTP/2 brings the argument to the server and its answer back", "statement": "For every argument message and every server that computes an answer from the message it reads: a synchronous call returns Ok without errors, the server has read the same message as the argument, and the reply object is the same message as the server's answer; if the server refuses, the call returns its status, reports it once and leaves the reply object alone; a call that returns Ok got an answer.", "quantifier": "all message types, argument messages, answers, encodings of the answers by other implementations, pieces in which they arrive", "why_tests_cant": "It needs a server for every message; tests have a few messages of one echo server.", "anchors": ["src/grpc/qabstractgrpcclient.h: call, trySerialize, tryDeserialize", "src/grpc/qabstractgrpcclient.cpp: call", "src/grpc/qgrpchttp2channel.cpp: post, call, processReply", "src/protobuf/qprotobufserializer.cpp"]}
{"id": "C77", "title": "A stream over HTTP/2 updates the reply object with every message of the server", "statement": "For every argument message and every server that streams answers computed from the message it reads: the server has read the same message as the argument, and the reply object becomes each of the server's messages, once and in order, without errors.", "quantifier": "all message types, argument messages, lists of answers, encodings and pieces in which they arrive", "why_tests_cant": "Tests have a few messages and cannot choose where the network cuts the stream.", "anchors": ["src/grpc/qabstractgrpcclient.h: stream, tryDeserialize", "src/grpc/qgrpchttp2channel.cpp: stream, post", "src/protobuf/qprotobufserializer.cpp"]}
{"id": "C78", "title": "Conversions of numbers that the target does not have are reported", "statement": "Converting a number through QVariant to a type that has no value for it fails; no other number comes out.", "quantifier": "all pairs of types and all values", "why_tests_cant": "The number ranges are too large for tests, and the limits of double and of the sign lie at values tests seldom use.", "anchors": ["src/protobuf/qtprotobuf.cpp: registerBasicConverters", "src/protobuf/qtprotobuftypes.h: transparent"]}
{"id": "C79", "title": "What is written contains only fields of the message, with their wire types and without what can be left out", "statement": "Whatever serialize writes is a sequence of records of fields of the message type only, each with the wire type of its field; numbers of a list are packed in one record; singular fields have at most one record; zeros of varint fields are left out; nested messages likewise. So it is among the encodings for which reading is proved to agree with protobuf.", "quantifier": "all message types and messages up to 2 GB", "why_tests_cant": "Other implementations rely on it for every message; tests compare a few messages with fixed bytes.", "anchors": ["src/protobuf/qprotobufserializer.cpp: serializeMessage, serializeProperty", "src/protobuf/qprotobufserializer_p.h: serializeBasic, serializeListType, encodeHeader", "src/protobuf/qabstractprotobufserializer_p.h: serializeList, serializeMap, serializeEnumList"]}
{"id": "C80", "title": "Every input has exactly one outcome, given by reading it record after record", "statement": "For every message type and every byte string, well formed or not, deserialize does what one reading of the input prescribes: record after record, tags and lengths modulo 2^32, declared fields by their type whatever the wire type says, unknown fields skipped by wire type. An input that is read to its end is accepted with these contents; at the first thing that is wrong the call fails with the exception for that, and the records before it have been taken over.", "quantifier": "all message types, all byte strings up to 2 GB", "why_tests_cant": "Unit tests feed a few well formed and a few broken inputs; the statement covers every byte string.", "anchors": ["src/protobuf/qprotobufserializer.cpp: deserializeMessage, deserializeProperty, deserializeObject, deserializeMapPair", "src/protobuf/qprotobufserializer_p.h: deserializeBasic, deserializeVarintCommon, deserializeLengthDelimited, decodeHeader", "src/protobuf/qprotobufselfcheckiterator.h: QProtobufSelfcheckIterator"]}
{"id": "C81", "title": "Every field of every generated class has the handlers it needs", "statement": "After qRegisterProtobufTypes() (and qRegisterProtobufQtTypes() where Qt types are used) the serializer finds, for the type of every field of every generated class, the handler for exactly this type, and also for keys and values of maps, so that no message can fail to be serialized or deserialized for want of a handler. The order in which the types of the files are registered does not matter.", "quantifier": "all sets of proto files, all fields, all orders of registration", "why_tests_cant": "Tests use the types of a few proto files; whether a handler exists depends on where an enum is declared and which other fields use it.", "anchors": ["src/generator/messagedefinitionprinter.cpp: printRegisterBody, printDestructor", "src/generator/enumdefinitionprinter.cpp: printRegisterBody", "src/protobuf/qabstractprotobufserializer.h: qRegisterProtobufType, qRegisterProtobufMapType, qRegisterProtobufEnumType", "src/protobuf/qprotobufserializer.cpp: serializeProperty, deserializeProperty, deserializeMapPair", "src/qttypes/qtprotobufqttypes.cpp: registerQtTypeHandler"]}
{"id": "C82", "title": "Comments of the proto file are comments of the generated code", "statement": "With the option COMMENTS every leading comment of a message or field is copied into the header as exactly one comment of C++, whatever its text, so that the generated code means the same with and without comments; no text of the comment is lost, and without the option, or for an empty comment, nothing is printed.", "quantifier": "all comments, at all indentations", "why_tests_cant": "Tests generate code for a few proto files with ordinary comments; what breaks are texts that mean something to C++ or to the printer.", "anchors": ["src/generator/baseprinter.h: BasePrinter::printComments", "src/generator/utils.h: trim, replace", "src/generator/messagedeclarationprinter.cpp: printComments calls"]}
{"id": "C83", "title": "Status objects are values", "statement": "A program may copy, move, assign, compare and destroy any number of QGrpcStatus objects in any order: each has the code and message it was given last, no operation on one object changes another, an object whose contents have been moved away can be given new ones or destroyed, two statuses are equal exactly if code and message are, and when all objects are destroyed nothing is left in memory.", "quantifier": "all histories of operations on any number of status objects", "why_tests_cant": "Tests copy, move and compare a few objects; aliasing, leaks and the use of objects that were moved from depend on the history.", "anchors": ["src/grpc/qgrpcstatus.cpp: QGrpcStatus", "src/grpc/qgrpcstatus.h: QGrpcStatus"]}
{"id": "C84", "title": "Generated types can be used in QML", "statement": "With the option QML every class generated for a message, and every enumeration of a file, is registered with the QML engine in a module that can be imported and under a name that QML accepts; two types never have the same module and name; the class registered for a message is the class of this message.", "quantifier": "all packages, nestings and names of messages and enumerations, all extra namespaces", "why_tests_cant": "Tests import the modules of a few proto files; which names can be imported depends on the package, the nesting and the options.", "anchors": ["src/generator/messagedefinitionprinter.cpp: printRegisterBody", "src/generator/enumdefinitionprinter.cpp: printRegisterBody", "src/generator/templates.cpp: QmlRegisterTypeTemplate, QmlRegisterEnumTypeTemplate", "src/generator/generatorcommon.cpp: produceMessageTypeMap, produceEnumTypeMap (qml_package)"]}
{"id": "C85", "title": "A call over the native channel brings the argument to the server and its answer back", "statement": "A synchronous call of a generated client over the native gRPC channel hands the server exactly the argument message, at the path of the service and method, and returns status Ok with a reply object equal to the message the server answered, whatever slices the answer comes in; a status of the server other than Ok is returned, reported once, and leaves the reply object as it was; a stream updates the reply object once per message in order and reports its final status exactly if it is not Ok; the result is the same as over the HTTP/2 channel.", "quantifier": "all message types, arguments, server functions, slicings of the answers, orders of events during the call", "why_tests_cant": "Tests make some calls to one test server; slicings of answers and orders of thread and event loop are up to the library and the scheduler.", "anchors": ["src/grpc/qgrpcchannel.cpp: parseByteBuffer, parseQByteArray, QGrpcChannelCall, QGrpcChannelStream, QGrpcChannelPrivate::call, QGrpcChannelPrivate::stream", "src/grpc/qabstractgrpcclient.h: call, stream, tryDeserialize"]}
{"id": "C86", "title": "Programs in other languages see Qt values under the names of the published messages", "statement": "For every value of a Qt type that the library writes into a field, a protobuf implementation that knows only QtCore.proto and QtGui.proto finds, under the names of the message fields, the components of the value (width and height, year, month and day, the elements of a matrix by row and column, the text of a UUID, 0xAARRGGBB of a colour, top left corner and size of a rectangle), floating point numbers bit for bit; and whatever such an implementation writes for a value in the usual ways is read as that value, with unset sub-messages read as zeros.", "quantifier": "all values of the twenty Qt types, all encodings that protobuf encoders produce, all surrounding bytes, all orders of fields", "why_tests_cant": "Round trip tests use the same conversions in both directions, so two faults that cancel pass; tests against other implementations compare a few values.", "anchors": ["src/qttypes/qtprotobufqttypes.cpp: convert, registerQtTypeHandler", "src/qttypes/QtProtobuf/QtCore.proto", "src/qttypes/QtProtobuf/QtGui.proto"]}
{"id": "C87", "title": "Destroying a client ends its streams", "statement": "When a client is destroyed every request of its streams that is running is stopped, exactly once, and every stream object is deleted, exactly once; no handler is called and no signal is emitted during the destruction or afterwards, whatever the network still delivers, whatever waits in the event loop and whatever restart timers are pending; and pointers to streams that the program still holds can be dropped afterwards.", "quantifier": "all histories of subscriptions, messages, failures, restarts, aborts and dropped pointers before the destruction, all histories after it, both channels, channel shared or not", "why_tests_cant": "The moment of destruction can fall between any two events; calls after the end of an object often show no symptom in a test.", "anchors": ["src/grpc/qabstractgrpcclient.cpp: ~QAbstractGrpcClient, stream", "src/grpc/qgrpchttp2channel.cpp: stream (slot for destroyed)", "src/grpc/qgrpcchannel.cpp: stream (slot for destroyed)", "src/grpc/qgrpcasyncoperationbase_p.h: QGrpcAsyncOperationBase"]}
{"id": "C88", "title": "Calls return in whatever thread they are made", "statement": "Clients can be called from any thread and from handlers that run while another call waits: every call returns exactly once, with the server's answer to that very call, as soon as the answer has arrived; calls that do not wait for an answer return without one.", "quantifier": "all interleavings of any number of threads, clients, calls (nested and forwarded to the thread of the client), answers and event loop turns", "why_tests_cant": "Needs every interleaving of several threads with nested event loops; a deadlock shows only in some of them.", "anchors": ["src/grpc/qabstractgrpcclient.cpp: call, stream (invokeMethod with BlockingQueuedConnection)", "src/grpc/qgrpchttp2channel.cpp: QGrpcHttp2Channel::call", "src/grpc/qgrpcchannel.cpp: QGrpcChannelPrivate::call"]}
{"id": "C89", "title": "Callbacks of asynchronous calls run in whatever thread the call is made", "statement": "A caller that subscribes to the reply of an asynchronous call right after the call, in the thread of the client or in any other thread, is told about the end of the call exactly once: by the callback for the answer, in which the data of the answer can be read, or by the callback for errors with the status.", "quantifier": "all interleavings of the client's thread with any number of calling threads, all numbers of calls, all answers and failures, all moments of their arrival", "why_tests_cant": "The moments between the return of the call and the end of subscribe() are a few instructions long; only a proof over all interleavings covers them.", "anchors": ["src/grpc/qabstractgrpcclient.cpp: QAbstractGrpcClient::call", "src/grpc/qgrpccallreply.h: QGrpcCallReply::subscribe", "src/grpc/qgrpccallreply.cpp: QGrpcCallReply::abort", "src/grpc/qgrpcasyncoperationbase_p.h: read, setData"]}
{"id": "C90", "title": "Every message of a stream can be read", "statement": "Every message a stream receives is given to its handlers once, in order; a slot connected to messageReceived, in whatever thread its object lives, reads every message once, in order, and when nothing is left to be done it has read the last one last.", "quantifier": "all interleavings of messages, notifications and turns of the reader's event loop, all contents, handlers that start event loops included", "why_tests_cant": "Which message read() gives depends on how many messages arrive before the slot runs; tests see one timing.", "anchors": ["src/grpc/qgrpcstream.h: QGrpcStream::handler", "src/grpc/qgrpcasyncoperationbase_p.h: read, setData"]}
{"id": "C91", "title": "A client can be used from several threads without data races", "statement": "Whatever threads make calls, open streams and read replies of one client at the same time, no two of them access the same member of the client at once unless both only read it.", "quantifier": "all histories of any number of threads, calls, streams, reads and channels", "why_tests_cant": "A data race depends on the schedule and is undefined behaviour without a visible symptom in most runs.", "anchors": ["src/grpc/qabstractgrpcclient.cpp: attachChannel, call, stream, serializer", "src/grpc/qabstractgrpcclient.h: trySerialize, tryDeserialize", "src/grpc/qgrpcasyncoperationbase_p.h: read"]}
{"id": "C92", "title": "Calls under way end although channels are replaced", "statement": "A call that was made ends with the end of its request, whatever the program does meanwhile: attach another channel to the client, let go of channels, make further calls inside the event loop of a synchronous one; nothing undefined happens.", "quantifier": "all histories of any number of channels of both kinds, calls, answers, timers and nested event loops", "why_tests_cant": "Needs every moment at which a channel can be replaced, and timers that run out while other calls wait.", "anchors": ["src/grpc/qabstractgrpcclient.cpp: attachChannel, call", "src/grpc/qgrpchttp2channel.cpp: post, abortNetworkReply, call", "src/grpc/qgrpcchannel.cpp: QGrpcChannelCall, QGrpcChannelPrivate::call"]}
{"id": "C93", "title": "A peer sees as set what the program has set", "statement": "Of the fields that a schema puts into a oneof, and of sub-messages, another protobuf implementation that reads what the library wrote sees as set exactly the one that the program has set; of what another implementation wrote, the library has set exactly the member that was sent.", "quantifier": "all messages, groups of singular fields of a oneof, values, and all inputs of other implementations", "why_tests_cant": "Which member is seen depends on the types and the order of all members of the oneof and on the values of all of them.", "anchors": ["src/protobuf/qprotobufserializer.cpp: serializeMessage, serializeObject, deserializeProperty", "src/protobuf/qprotobufserializer_p.h: serializeBasic", "src/generator/messagedeclarationprinter.cpp: printProperties, printClassMembers"]}
{"id": "C94", "title": "Generated files read as C++ and declare what the schema says", "statement": "The text of the headers and sources that the generator prints for a file reads as C++: comments and literals end, brackets match, declarations are finished. A reader of C++ finds in the header of the messages exactly the classes of the messages and enumerations of the schema, each declared forward first, in the namespaces of the package; in each class, which is a QObject with Q_OBJECT in it, exactly the properties of the fields, with type, name, the methods that read and write them, the signal and whether QML sees them, exactly the enumerations, and exactly the constructors, getters, setters, signals and private functions, each in its section, so that what a property names is declared; and outside of all namespaces the meta types of the classes. In the header of the clients it finds one class for every service with the functions of its methods, and in the sources no declarations.", "quantifier": "all files of messages, enumerations and services, of any number and depth, all comments, options and names", "why_tests_cant": "Whether text that is put together from some hundred templates reads as C++ depends on every combination of field types, options, nesting and names.", "anchors": ["src/generator/templates.cpp: Templates", "src/generator/messagedeclarationprinter.cpp: MessageDeclarationPrinter", "src/generator/messagedefinitionprinter.cpp: MessageDefinitionPrinter", "src/generator/enumdeclarationprinter.cpp: EnumDeclarationPrinter", "src/generator/enumdefinitionprinter.cpp: EnumDefinitionPrinter", "src/generator/clientdeclarationprinter.cpp: ClientDeclarationPrinter", "src/generator/clientdefinitionprinter.cpp: ClientDefinitionPrinter", "src/generator/singlefilegenerator.cpp: GenerateMessages, GenerateServices", "src/generator/generatorcommon.cpp: producePropertyMap", "src/generator/baseprinter.h: printComments"]}
{"id": "C95", "title": "Generated sources define what the generated headers declare", "statement": "The text of the generated source of messages, read as C++, defines for every message of the schema its constructors, copies, comparisons, getters, setters, destructor and registration, with the results and parameters that the schema asks for, and nothing else. Every constructor gives every member a value. The table in which the library looks for fields has one entry for every field, with its number and JSON name, and its index leads to the property of that field in the class of the header. The registration makes every type known under its full name. Functions of generated clients call the method they are named after with the message they were given.", "quantifier": "all files of messages, enumerations and services, of any number and depth, all field types, options and names", "why_tests_cant": "The sources are put together from many templates: a wrong one for some combination of type, label, option and nesting gives a class that does not link, a member without value or a field stored in a wrong property.", "anchors": ["src/generator/templates.cpp: Templates", "src/generator/messagedefinitionprinter.cpp: MessageDefinitionPrinter", "src/generator/enumdefinitionprinter.cpp: EnumDefinitionPrinter", "src/generator/clientdefinitionprinter.cpp: ClientDefinitionPrinter", "src/generator/singlefilegenerator.cpp: GenerateMessages, GenerateServices", "src/generator/generatorcommon.cpp: producePropertyMap"]}
{"id": "C96", "title": "Functions of generated classes do what the schema promises when they are run", "statement": "The text of the generated header and source of messages is read as C++ and the bodies of its functions are run. Comparison returns and answers right; the copy constructor and the assignment give the contents of the source and leave it unchanged; moves give the contents the source had and leave it a proper object; constructors give the leading fields copies of their arguments and all others the default values, whatever the memory held; setters change one property, exactly if the new value differs, and emit its signal exactly then; getters return the value of the property and change nothing, also after a setter; pointers to messages that are returned point to the message the object holds, and one that is given is held from then on; an assignment emits the signal of every property it changes and of no other.", "quantifier": "all files of messages with plain names, of any number and depth, all field types, all values of objects, any memory a new object is made in", "why_tests_cant": "The functions exist only as text that is put together from templates, one for every combination of type and label: a wrong operator, a wrong name or a missing signal in one of them shows only in classes with that combination and for some values.", "anchors": ["src/generator/templates.cpp: Templates", "src/generator/messagedefinitionprinter.cpp: printCopyFunctionality, printMoveSemantic, printComparisonOperators, printGetters", "src/generator/messagedeclarationprinter.cpp: printGetters, printSetters, printComparisonOperators", "src/protobuf/qprotobuflazymessagepointer.h: QProtobufLazyMessagePointer"]}
{"id": "C97", "title": "Each type is declared to the meta-type system once", "statement": "A generated header declares the classes of its messages, the lists of them, the enumerations of messages that fields have and the lists of these to the meta-type system of Qt, each of them once (a second declaration is a second specialisation of a template, which does not compile).", "quantifier": "all files of messages with plain names, of any number and depth, all options", "why_tests_cant": "Which declarations are printed depends on all fields of a message together: the tests have one field for each enumeration.", "anchors": ["src/generator/messagedeclarationprinter.cpp: printMetaTypesDeclaration", "src/generator/templates.cpp: DeclareMetaTypeTemplate, DeclareMetaTypeListTemplate, DeclareMetaTypeMapTemplate"]}
{"id": "C98", "title": "Answers are read as what they are whatever the program does meanwhile", "statement": "Between a request and the reading of its answer the program may attach other channels, destroy objects, the object for the reply and the client included, and make further calls, also in handlers that run while a synchronous call waits: the call returns, nothing undefined happens, and the answer is read in the format of the channel it came through and written into the object for the reply if that still exists.", "quantifier": "all clients, serializers of channels, arguments, answers and histories of handlers, with calls inside of calls to any depth", "why_tests_cant": "Handlers run inside of a call only if something happens during it; tests have no such handlers, and one serializer.", "anchors": ["src/grpc/qabstractgrpcclient.h: call, tryDeserialize, stream", "src/grpc/qabstractgrpcclient.cpp: call, attachChannel, serializer", "src/grpc/qgrpcasyncoperationbase_p.h: read"]}
{"id": "C99", "title": "Generated headers declare what they use before they use it", "statement": "A source file that includes any of the headers generated for a project can be compiled as far as the order of declarations goes: where the class of a message uses the class, the list type or the enumeration of a field, that was declared before, in the header itself or in a header that was opened before, where each header is opened once; in single-file and in multi-file mode, with and without an extra namespace.", "quantifier": "all projects: files, imports, trees of messages, types of fields, and headers that include each other", "why_tests_cant": "Tests compile the headers of a few proto files; which declarations come first depends on the order and nesting of messages and on which headers include which.", "anchors": ["src/generator/messagedeclarationprinter.cpp: printClassDeclarationPrivate, printClassForwardDeclarationPrivate", "src/generator/singlefilegenerator.cpp: GenerateMessages", "src/generator/multifilegenerator.cpp: GenerateMessages, findNestedDependency", "src/generator/generatorcommon.h: getNestedNamespaces"]}
{"id": "C100", "title": "Single-file and multi-file generation give the same classes", "statement": "Whether the generator is asked for one header and source per proto file or for one per message does not change the classes it generates: the text of every message class, of its functions, of every enumeration class and of every client is the same in both, so the same bodies run and the same members are declared.", "quantifier": "all proto files that can be written in the model, all their messages, enumerations and services, and all options of the generator", "why_tests_cant": "Tests are built in one of the two modes for a few proto files; that both print the same has to hold for every tree of messages and all options.", "anchors": ["src/generator/multifilegenerator.cpp: GenerateMessages, GenerateServices, GenerateAll", "src/generator/singlefilegenerator.cpp: GenerateMessages, GenerateServices", "src/generator/messagedeclarationprinter.cpp: printClassDeclaration", "src/generator/templates.cpp: GlobalEnumIncludeTemplate"]}
{"id": "C101", "title": "Functions of generated clients make one request and pass on its answer", "statement": "Every function that the generator prints for a method of a service makes exactly one request, of the method it is named after and with the value its argument has at that time, or refuses the call with a warning and makes none. When the answer arrives, the caller is given it exactly once: as a new object handed to the JavaScript callback, assigned to the given object if that still exists, or as the reply. When the request fails the caller is told the status. No function uses a null pointer or an object that is gone.", "quantifier": "all services and methods that can be written in the model, all options, all arguments, all states of the program when the call is made, all that happens before the answer, all answers and failures", "why_tests_cant": "Tests call a few methods of two services from C++ and QML; that the bodies are right has to hold for the text printed for any method, any arguments and whatever happens to objects before the answer arrives.", "anchors": ["src/generator/templates.cpp: ClientMethodDefinitionSyncTemplate, ClientMethodDefinitionAsyncTemplate, ClientMethodDefinitionAsync2Template, ClientMethodDefinitionQmlTemplate, ClientMethodDefinitionQml2Template, ClientMethodServerStreamDefinitionTemplate, ClientMethodServerStream2DefinitionTemplate, ClientMethodServerStreamQmlDefinitionTemplate", "src/generator/clientdefinitionprinter.cpp: printMethods", "src/grpc/qgrpccallreply.h: subscribe"]}
{"id": "C102", "title": "Copied and assigned messages are independent of their sources", "statement": "After a message is copied, or assigned from another one, it has the values of the source, in itself and in all messages in it, and from then on neither changes when the other is written to or destroyed. Any message may be assigned to any other of its class, also to one it is part of or that is part of it. No object is used after it is destroyed.", "quantifier": "all schemas, nested and recursive ones included, all programs that create, copy, assign, write, share list elements and destroy messages, all depths", "why_tests_cant": "Tests copy a few flat messages and look at them at once; sharing shows only after later writes through one of many paths, and depends on which object is part of which.", "anchors": ["src/generator/messagedefinitionprinter.cpp: printCopyFunctionality, printComparisonOperators", "src/generator/templates.cpp: CopyFieldTemplate, CopyComplexFieldTemplate, AssignComplexFieldTemplate, SetterTemplateDefinitionMessageType", "src/protobuf/qprotobuflazymessagepointer.h: QProtobufLazyMessagePointer", "src/protobuf/qtprotobuftypes.h: repeatedValueCompare"]}
{"id": "C103", "title": "Texts assigned to number properties in QML", "statement": "In QML the decimal text of a number can be assigned to a property of every protobuf number type that is a type of its own, and gives the property that number. The text that a number is converted to gives the number back. A text that stands for no number of the type is refused.", "quantifier": "all texts, all numbers, all protobuf number types that are no number types of C++", "why_tests_cant": "There are 2^32 numbers of each type and more texts. A test tries a few and does not see the texts that are out of range, where the result is not defined.", "anchors": ["src/protobuf/quick/qtprotobufquickplugin.cpp: coverter, QtProtobufQuickPlugin::registerTypes", "src/protobuf/qtprotobuf.cpp: registerBasicConverters", "src/protobuf/qtprotobuftypes.h: transparent"]}
{"id": "C104", "title": "Generated classes on the wire", "statement": "What a program stores in an object of a generated class through its setters and properties is what a peer that follows the protobuf specification reads from the serialized bytes, field by field, and what the getters and properties of a new object of the class return after these bytes were read. The serializer finds the fields only through the table and the properties that the generated files declare.", "quantifier": "all schemas in files with plain names, all programs made of their generated files, all objects, all fields and values, Qt 5 and Qt 6", "why_tests_cant": "The fields pass through generated text: the table, the names, the indexes and the functions of properties. A test has a few messages, and no test has two properties of one name.", "anchors": ["src/protobuf/qprotobufserializer.cpp: serializeMessage, deserializeMessage, deserializeProperty", "src/generator/messagedeclarationprinter.cpp: printProperties", "src/generator/messagedefinitionprinter.cpp: printFieldsOrdering, printGetters", "src/generator/templates.cpp: SetterTemplateDefinition*, GetterTemplateDefinition*"]}
{"id": "C105", "title": "Generated classes in JSON", "statement": "What a program stores in an object of a generated class through its properties is shown in the JSON document that is written for it, in a member with the JSON name that the field has in the .proto file, and is what the properties of a new object of the class return after this document was read. The serializer finds the fields only through the table and the properties that the generated files declare.", "quantifier": "all schemas in files with plain names, all programs made of their generated files, all objects, all fields and values, all documents, Qt 5 and Qt 6", "why_tests_cant": "The fields pass through generated text: the JSON names in the table, the indexes and names of properties, their functions. A test has a few messages, and no test has two properties of one name.", "anchors": ["src/protobuf/qprotobufjsonserializer.cpp: serializeObject, serializeProperty, deserializeObject", "src/generator/messagedeclarationprinter.cpp: printProperties", "src/generator/messagedefinitionprinter.cpp: printFieldsOrdering, printGetters", "src/protobuf/qtprotobuftypes.h: QProtobufPropertyOrdering"]}
{"id": "C106", "title": "Generated programs from end to end", "statement": "A program sets properties of an object of a generated class and passes it to a function of a generated client. A server that follows the specifications of gRPC and protobuf receives, at the path of the service and method in the .proto file, a message with the values last written to the properties. The function returns status Ok, and the properties of the reply object show the values of the message that the server has answered with; each message of a stream is shown in turn. If the server refuses, its status is returned and reported and the reply object is as it was.", "quantifier": "all schemas and services in files with plain names, all programs made of their generated files, all sequences of property writes, all servers, all cuts of the answer into pieces", "why_tests_cant": "Every part of the chain is generated or finds the others through generated text: client functions, service name, tables, properties, operators. A test has a few schemas and one server, which is built from the same generator.", "anchors": ["src/grpc/qabstractgrpcclient.h: call, stream, tryDeserialize", "src/grpc/qgrpchttp2channel.cpp: call, stream", "src/protobuf/qabstractprotobufserializer.h: deserialize", "src/protobuf/qprotobufserializer.cpp: serializeMessage, deserializeProperty", "src/generator/clientdefinitionprinter.cpp: printMethods, printConstructor", "src/generator/messagedefinitionprinter.cpp"]}
{"id": "C107", "title": "Every field of every generated class can be written and read in JSON", "statement": "After qRegisterProtobufTypes() (and qRegisterProtobufQtTypes() where Qt types are used) the JSON serializer finds, for the type of every field of every generated class and for the values of maps, the function that writes and the function that reads values of exactly this type, so that no value is written as bare text or skipped when read for want of a function. The order in which the types of the files are registered does not matter.", "quantifier": "all sets of proto files, all fields, all orders of registration", "why_tests_cant": "Whether a function is found depends on where an enum is declared and which other fields use it; where none is found nothing fails: a value is written without quotes or brackets, or ignored when read.", "anchors": ["src/protobuf/qprotobufjsonserializer.cpp: serializeValue, deserializeValue, serializeMapPair, deserializeMapPair, handlers", "src/generator/messagedefinitionprinter.cpp: printRegisterBody", "src/generator/enumdefinitionprinter.cpp: printRegisterBody", "src/protobuf/qabstractprotobufserializer.h: qRegisterProtobufType, qRegisterProtobufMapType, qRegisterProtobufEnumType"]}
{"id": "C108", "title": "Asynchronous calls bring each answer to its own reply", "statement": "A client makes any number of asynchronous calls over HTTP/2 or the native channel, and they overlap in any way. The server receives for each call the message that was given as its argument. If the server answers a call, the reply of this call, and no other, emits finished once, without an error, and read() on it returns the message that the server sent for this call, however often and however late; a refused call emits the status of the server once, a call that times out emits Unavailable once, and a call that is aborted emits Aborted once. A reply that has finished was answered by the server.", "quantifier": "all messages, all numbers of calls, all interleavings of calls, answers, time-outs, aborts and deletions", "why_tests_cant": "Mixing up two replies, a late timer or a deleted network reply shows only under particular interleavings with particular contents.", "anchors": ["src/grpc/qabstractgrpcclient.h: call", "src/grpc/qabstractgrpcclient.cpp: call", "src/grpc/qgrpchttp2channel.cpp: QGrpcHttp2Channel::call", "src/grpc/qgrpcasyncoperationbase_p.h: read", "src/grpc/qgrpccallreply.cpp"]}
{"id": "C109", "title": "Overlapping streams bring each message to its own handlers, byte by byte", "statement": "A client has any number of streams over HTTP/2 at a time, and the pieces of their replies arrive in any order. Each request passes on exactly the messages whose bytes have arrived completely in its own reply, however this reply is cut at harmless places and whatever arrives for others in between, even if a reply gets the address of an earlier one. A handler hears exactly the messages that the requests of its stream passed on since it subscribed, in order, and none of other streams; its reply object is updated with the messages that the server sent. A piece that arrives in such a reply is never undefined behaviour.", "quantifier": "all numbers of streams, all messages, all cuts into pieces, all interleavings of pieces with subscriptions, cancellations, aborts, ends and deletions", "why_tests_cant": "Mixing the buffers of two streams shows only if the pieces of their messages interleave, and stale bytes only if an address is used again.", "anchors": ["src/grpc/qgrpchttp2channel.cpp: activeStreamReplies", "src/grpc/qgrpchttp2channel.cpp: QGrpcHttp2Channel::subscribe", "src/grpc/qabstractgrpcclient.cpp: subscribe", "src/grpc/qgrpcsubscription.cpp"]}
{"id": "C110", "title": "The program that lists headers names those that the generator writes", "statement": "For a proto file the program parsemessages prints the names of the headers that the generator will write for it: with MULTI one per message and per service, each once, otherwise the one or two of single-file mode, in directories of the package if FOLDER is given. It fails exactly if it is called without a file or the file cannot be read or has a line of 64 kB or more.", "quantifier": "all proto files (texts), all names, all options, both kinds of line ends", "why_tests_cant": "Tests try a few proto files; the program guesses from the text of lines, and which guesses are wrong depends on the layout of any file.", "anchors": ["src/generator/parsemessages.go: main", "src/generator/multifilegenerator.cpp", "src/generator/singlefilegenerator.cpp"]}
{"id": "C111", "title": "A list model of messages shows its views what it contains", "statement": "Views and counters attached to a UniversalListModel show its rows, in their order, after every history of operations; they are never told of rows that do not exist. Every role shows the property of the object in the row. Objects that were handed over live as long as a row or the application has them and are deleted once when neither has.", "quantifier": "all histories of append, prepend, remove, reset and of shared pointers held by the application; all rows, roles and classes", "why_tests_cant": "Tests check a few operations on short lists; whether a view is in step and whether an object is deleted once depends on the whole history.", "anchors": ["examples/examples_common/universallistmodel.h: append, prepend, remove, reset, clear, data, roleNames, findByProperty"]}
{"id": "C112", "title": "The chat server shows every user the whole chat and lets in nobody else", "statement": "The server of the chat example stores exactly the messages of its users, in order, under the name of the user who sent them whatever name they contain, and refuses all others. Every user who subscribes is shown the whole chat at once and again after every message; anyone else is shown nothing.", "quantifier": "all histories of subscriptions and messages, all metadata, all contents of the memory behind the values, all moments at which a message comes", "why_tests_cant": "A test runs two clients for a moment; the schedules in which a message is missed or a refused client is written to, and the lengths of names at which the check goes wrong, do not occur in it.", "anchors": ["examples/simplechatserver/main.cpp: SimpleChatService::extractCredentials, checkUserCredentials, sendMessage, updateMessages, loginUser, main"]}
{"id": "C113", "title": "A handler of a stream may abort the stream or wait while it is called", "statement": "When a handler aborts the stream whose message it is called for, no further message of the bytes that have arrived is passed on and nothing of the stream is left in the channel. When it runs an event loop, for instance by a blocking call, in which further bytes arrive, every message is still passed on once, in order.", "quantifier": "all bytes, all messages in them, all handlers that abort at any message or during which any bytes arrive", "why_tests_cant": "Tests have handlers that only count or copy. What goes wrong depends on bytes that arrive during the call of a handler.", "anchors": ["src/grpc/qgrpchttp2channel.cpp: QGrpcHttp2Channel::stream, readyRead lambda", "src/grpc/qgrpcstream.h: QGrpcStream::handler", "src/grpc/qgrpcstream.cpp: QGrpcStream::abort"]}
{"id": "C114", "title": "A client may be destroyed inside the functions it calls", "statement": "A program may destroy a client in any slot, handler or callback that the client, its calls or its streams call: nothing undefined happens then, nor when the program drops its pointers to the calls and streams of the client afterwards.", "quantifier": "all lists of slots and handlers, whichever of them destroy the client, both channels, calls and streams, answers, messages, ends, aborts and failures, whoever holds the channel and the pointers", "why_tests_cant": "Such errors are uses of memory that has just been freed. A test that does not crash shows nothing, and each place in which the client is destroyed is another case.", "anchors": ["src/grpc/qabstractgrpcclient.cpp: QAbstractGrpcClient::call, stream", "src/grpc/qgrpchttp2channel.cpp: QGrpcHttp2Channel::call, stream", "src/grpc/qgrpcchannel.cpp: QGrpcChannelPrivate::call, stream", "src/grpc/qgrpcstream.h: QGrpcStream::handler", "src/generator/templates.cpp: ClientMethodDefinitionAsync2Template, ClientMethodDefinitionQmlTemplate"]}
{"id": "C115", "title": "The address book server shows every listener the contacts and the call", "statement": "The server of the address book example stores exactly the contacts of the authorized user, after those it starts with, in order, and refuses all others; the client of the example is authorized. Everyone who listens is shown the whole list at once and again after every change, and the status of the call likewise. A call that is made is answered as active and stays so until it is ended; then listeners are told that it has ended, and that there is none. The server never does anything undefined.", "quantifier": "all histories of subscriptions, calls of all functions, and steps of the main thread; all metadata and contacts; all moments at which a call comes, also while endCall sleeps", "why_tests_cant": "A test runs one client for a moment; the schedules in which a change is missed, or a new call is ended by the end of the last one, do not occur in it.", "anchors": ["examples/addressbookserver/main.cpp: AddressBookService::addContact, removeContact, navigateTo, makeCall, endCall, updateContacts, ContactsHandler, CallHandler, main", "examples/addressbook/addressbookengine.cpp: AddressBookEngine::AddressBookEngine", "src/grpc/qgrpcuserpasswordcredentials.h: QGrpcUserPasswordCredentials"]}
{"id": "C116", "title": "The chat client shows lists under the name it asked for them with", "statement": "The client of the chat example never does anything undefined, however often the user logs in and whatever the network does. After a login a request with this account waits for lists, also after the connection was lost; every list that arrives on it is shown, under the name of the account, and the user is told to be logged in when the name changes. Every list is shown under the name of the account with which it was asked for, and messages are then sent with this account. A login that is refused is repeated at most once. The server of the example lets exactly its users in, with the password qwerty, and stores their messages under their names.", "quantifier": "all histories of logins, messages, events of the network and timers; all names, passwords and lists", "why_tests_cant": "A test logs in once; a second login within a second after a failed one meets the repeated request of the first.", "anchors": ["examples/simplechat/simplechatengine.cpp: SimpleChatEngine::login, sendMessage", "src/grpc/qabstractgrpcclient.cpp: QAbstractGrpcClient::attachChannel, stream", "src/grpc/qgrpcuserpasswordcredentials.h: QGrpcUserPasswordCredentials", "examples/simplechatserver/main.cpp: extractCredentials, checkUserCredentials"]}
{"id": "C117", "title": "The tutorial client shows the answer to what was entered last", "statement": "In the client of the tutorial every text that the user enters is sent to the method Echo once, as it was entered, in the order of the entries, also when texts are entered while earlier requests wait. Every entry is answered or refused once; a refusal is reported with the code of the server and leaves the response as it was. The response shows the text of each answer; with one request at a time the answers come in the order of the entries and in the end the response shows the text that was entered last. The text typed into the input field stays there until it is entered.", "quantifier": "all sessions: all texts, all requests entered while others wait to any depth, all servers that echo in any pieces and with any usual encoding, all refusals", "why_tests_cant": "A test enters one text and waits for its answer; the event loop of the waiting call runs whatever the user does meanwhile.", "anchors": ["examples/clienttutorial/echoclientengine.cpp: EchoClientEngine::request", "examples/clienttutorial/main.qml: onAccepted", "examples/clienttutorial/tutorial.proto: EchoService", "examples/clienttutorial/tutorialserver/main.go: Echo", "src/grpc/qgrpchttp2channel.cpp: QGrpcHttp2Channel::call"]}
{"id": "C118", "title": "URLs and images in fields arrive as Qt reads them", "statement": "A QUrl that Qt gets back from its own text, and a QImage that Qt gets back from its own PNG file, are the same after they were written into a field and read from it. Any protobuf implementation finds the text of the URL, or the PNG file and the name of its format, in the message. From what another implementation writes, the library reads the URL that Qt parses from the text, and the image that Qt reads from the file with the codec of its format, for every format. A program that reads an image and writes it again writes what it got.", "quantifier": "all URLs, images, texts, files and formats; all URL parsers and codecs Qt may have; all usual encodings, whatever stands before and after them", "why_tests_cant": "A test sends one URL and one image; the bytes of other encoders come in any order and with unknown fields.", "anchors": ["src/qttypes/qtprotobufqttypes.cpp: convert, registerQtTypeHandler", "src/qttypes/QtProtobuf/QtCore.proto: QUrl", "src/qttypes/QtProtobuf/QtGui.proto: QImage"]}
{"id": "C119", "title": "Values of Qt's types survive JSON", "statement": "A value of one of Qt's types (point, size, rectangle, polygon, date, time, colour, matrix, vector, transform, quaternion, UUID, character) that is written by the JSON serializer is written as a JSON document in which other programs find its members under the names of QtCore.proto and QtGui.proto, and is read back as the same value. From every JSON document that another program writes for the value, with members in any order, with white space, with zeros left out, the library reads the value.", "quantifier": "all values of the 20 types that survive the conversion to their message (C45), all field orders, all JSON documents that stand for the value", "why_tests_cant": "A test writes one value of each type as the library itself writes it; documents of other programs, nested messages that keep their default and numbers of any size are not tried.", "anchors": ["src/qttypes/qtprotobufqttypes.cpp: convert, registerQtTypeHandler", "src/protobuf/qprotobufjsonserializer.cpp: serializeValue, deserializeValue, serializeObject, deserializeObject"]}
{"id": "C120", "title": "Messages with fields of Qt's types", "statement": "A message class with fields of Qt's types among other fields is serialized to one record for each such field, whose message shows the field's value to other programs, and is deserialized to an object in which all fields have the values that were sent. Whatever records arrive, in any order and with unknown ones among them, a field of a Qt type ends with the value of its last record, or as in a new object when it has none, and the other fields as in a message without fields of Qt's types.", "quantifier": "all classes with any number of fields of the 20 types and of any other types, all values, all field orders, all lists of well formed records", "why_tests_cant": "A test has one Qt field per message and writes what the library reads; records of other programs in any number and order, fields next to each other, and what the setter's comparison by Qt does to the value are not tried.", "anchors": ["src/qttypes/qtprotobufqttypes.cpp: registerQtTypeHandler", "src/protobuf/qprotobufserializer.cpp: serializeMessage, serializeProperty, deserializeMessage, deserializeProperty", "src/generator/templates.cpp: MemberTemplate, SetterTemplateDefinitionComplexType, SetterTemplate"]}
{"id": "C121", "title": "Copies and comparisons of messages with fields of Qt's types", "statement": "A copy of a message object, and an object after an assignment, have in every field of a Qt type the value of the original, or one that Qt takes for equal to it, whatever the memory or the target contained before; all other fields are copies as in classes without such fields. Two objects compare equal exactly if all their fields do. An object compares equal to its copies, copies of copies do not drift further, and deserialize() gives an object that has been used before the values that were received.", "quantifier": "all classes with any number of fields of the 20 types and of any other types, all values, all contents of the target and of the memory, all received bytes", "why_tests_cant": "A test copies a few objects with values that are far apart; values that Qt's fuzzy comparison takes for equal, targets with other contents and uninitialised memory are not tried.", "anchors": ["src/generator/messagedefinitionprinter.cpp: printCopyFunctionality, printComparisonOperators", "src/generator/generatorcommon.cpp: isQtType, isPureMessage", "src/generator/templates.cpp: CopyFieldTemplate, EqualOperatorPropertyTemplate", "src/protobuf/qabstractprotobufserializer.h: deserialize"]}
{"id": "C122", "title": "Qt's values in nested messages", "statement": "Qt's values arrive from whatever depth of a message: in sub-messages, in elements of repeated messages and in messages inside of those, each value is the one that was sent, in the field, the element and the order it was sent in, beside the fields of other types. A message of any nesting, with its records and those of the messages in it in any order and unknown ones among them, is read without an exception into the contents its records say. An unset sub-message arrives as a new object of its class. An error in a message at any depth is reported to the caller with an exception.", "quantifier": "all systems of message classes, recursive or not, with any fields of the 20 types, of other types, of messages and of repeated messages; all objects, depths and lengths; all orders of iteration and of records", "why_tests_cant": "A test nests one message in another once; depth, number of elements, order of records and recursive classes are unbounded.", "anchors": ["src/protobuf/qabstractprotobufserializer_p.h: serializeObject, serializeList, deserializeObject, deserializeList", "src/protobuf/qprotobufserializer.cpp: serializeMessage, deserializeMessage, serializeListObject, deserializeListObject, deserializeProperty", "src/qttypes/qtprotobufqttypes.cpp: registerQtTypeHandler", "src/protobuf/qprotobuflazymessagepointer.h: get"]}
{"id": "C123", "title": "Copies and comparisons of messages with Qt's values at any depth", "statement": "Messages with Qt's values in sub-messages, in elements of repeated messages and in messages inside of those are copied and compared like other messages: == says whether they agree in all fields at every depth, for a Qt type in the sense of Qt's ==, and an unset sub-message counts as a new object; after an assignment, a copy construction or a deserialization into an object that was used before, the target is a copy of the source at every depth and, if there is no NaN, equal to it. None of these fails to return, whatever the target contained.", "quantifier": "all systems of message classes, recursive or not, with any fields of Qt's types, of other types, of messages and of repeated messages; all pairs of objects, set or unset, of any depth; all reflexive and symmetric meanings of Qt's ==; all contents of the memory before a copy construction", "why_tests_cant": "Depth, number of elements, which of the sub-messages are set on either side and the classes are unbounded; a test compares one pair.", "anchors": ["src/generator/messagedefinitionprinter.cpp: printCopyFunctionality, printComparisonOperators", "src/generator/templates.cpp: CopyComplexFieldTemplate, AssignComplexFieldTemplate, EqualOperatorMessagePropertyTemplate", "src/protobuf/qprotobuflazymessagepointer.h: operator==, get", "src/protobuf/qabstractprotobufserializer.h: deserialize"]}
{"id": "C124", "title": "Moving messages with Qt's values at any depth", "statement": "After target = std::move(source), or construction by move, of messages with fields of Qt's types, also in sub-messages, in elements of repeated messages and in messages inside of those, the target has at every depth the contents the source had, whatever it contained before and whichever sub-messages are set on either side; the source stays a proper object of its class; an object moved to itself keeps its contents; an object that does not emit the change signal of a field has the value it had.", "quantifier": "all systems of message classes, recursive or not, with any fields of Qt's types, of other types, of messages and of repeated messages; all pairs of objects of any depth; all that Qt may leave in values and containers that were moved from; all reflexive and symmetric meanings of Qt's ==; all contents of the memory before a construction", "why_tests_cant": "Depth, which sub-messages are set, what was in the target and what Qt leaves in a moved-from value are unbounded; a test moves one object.", "anchors": ["src/generator/messagedefinitionprinter.cpp: printMoveSemantic", "src/generator/templates.cpp: MoveMessageFieldTemplate, MoveAssignMessageFieldTemplate, MoveComplexFieldTemplate, MoveComplexFieldConstructorTemplate, MoveFieldTemplate", "src/generator/generatorcommon.cpp: isPureMessage, isQtType", "src/protobuf/qprotobuflazymessagepointer.h: operator==, get"]}
{"id": "C125", "title": "Messages with Qt's values at any depth in JSON", "statement": "A message with fields of Qt's types, also in sub-messages, in elements of repeated messages and in messages inside of those, is written by the JSON serializer as a JSON document that has, under the JSON name of each field, its value, for a Qt value the message of QtCore.proto or QtGui.proto; any document that stands for such a message, with members in any order, white space, unknown members and null, is read as that message; what is written is read back as the same message at every depth.", "quantifier": "all systems of message classes with any fields of Qt's types, of other types, of messages and of repeated messages; all objects and documents of any depth and size; all iteration orders of the fields; all meanings of Qt's ==", "why_tests_cant": "Depth, sizes, orders of members and which members are missing are unbounded; a test writes or reads one document.", "anchors": ["src/protobuf/qprotobufjsonserializer.cpp: serializeObject, serializeProperty, serializeValue, serializeListObject, serializeListEnd, deserializeObject, deserializeValue, deserializeListObject", "src/protobuf/qabstractprotobufserializer_p.h: serializeObject, serializeList, deserializeObject, deserializeList", "src/qttypes/qtprotobufqttypes.cpp: registerQtTypeHandler"]}
{"id": "C126", "title": "Any text read as JSON into messages with Qt's values at any depth", "statement": "Whatever the text that is given to the JSON deserializer for a message with fields of Qt's types, also in sub-messages and in elements of repeated messages, reading returns or throws what the JSON library throws: it never recurses endlessly, never dereferences a null pointer, never overflows an integer. In either case what is left is an object of its class at every depth, with Qt values of the types of the fields, and a field that is not named in the text has the value of a new object.", "quantifier": "all texts of any length; all systems of message classes, also recursive ones, with any fields of Qt's types; all JSON libraries that return or throw; all iteration orders of the fields; all meanings of Qt's ==", "why_tests_cant": "The texts are all sequences of bytes, malformed ones among them; a fuzzer tries some of them.", "anchors": ["src/protobuf/qprotobufjsonserializer.cpp: deserializeObject, deserializeValue, deserializeListObject", "src/protobuf/qabstractprotobufserializer_p.h: deserializeObject, deserializeList", "src/qttypes/qtprotobufqttypes.cpp: registerQtTypeHandler, convert"]}
{"id": "C127", "title": "URLs and images in JSON", "statement": "A field of type QUrl or QImage is written by the JSON serializer as an object with the members that QtCore.proto and QtGui.proto name: the text of the URL, or the PNG file of the image in Base64 and the name of the format. Any document that stands for such a message is read as the URL that Qt parses from the text, or as the image that Qt reads from the file with a codec of the format. A URL that Qt gets back from its text and an image that Qt gets back from its PNG file arrive. Whatever the text, reading returns or throws what the JSON library throws.", "quantifier": "all URLs and images; all URL parsers, printers and image codecs of Qt; all JSON documents and, for the last sentence, all texts; all iteration orders of the fields", "why_tests_cant": "URLs, images, codecs and documents are unbounded; a test writes or reads one.", "anchors": ["src/qttypes/qtprotobufqttypes.cpp: convert, registerQtTypeHandler", "src/qttypes/QtProtobuf/QtCore.proto: QUrl", "src/qttypes/QtProtobuf/QtGui.proto: QImage", "src/protobuf/qprotobufjsonserializer.cpp: serializeObject, deserializeObject, serializeValue, deserializeValue"]}
{"id": "C128", "title": "Any bytes read into messages with Qt's values at any depth", "statement": "Whatever bytes are given to deserialize, and however reading ends, the new message holds an object of its class: every field, at any depth and in every element of a list of messages, holds a value of its type, every field of a Qt type a value of that Qt type, and no list has a null pointer. Reading ends, and nothing in it is undefined.", "quantifier": "all byte strings; all message types in which fields of Qt types, messages and lists of messages occur at any depth; all comparisons of Qt values", "why_tests_cant": "Byte strings, message types and depths are unbounded; a test reads a few byte strings into one type.", "anchors": ["src/protobuf/qprotobufserializer.cpp: deserializeMessage, deserializeProperty, deserializeObject, deserializeListObject", "src/protobuf/qabstractprotobufserializer.h: deserializeObject, deserializeList", "src/qttypes/qtprotobufqttypes.cpp: convert, registerQtTypeHandler"]}
