# Formal model of enferas/qtimigration in Lean 4

Sources are cited as `/repo/<path>:<lines>` (or, in a module, by the file named at its top).  Everything is
Python 2 code that is read as text; nothing is executed.

## Layout

* `lean/Verif/Model/*.lean` – executable, total Lean definitions that follow the Python function by function.
  Each definition cites the lines it models and says where it simplifies.
* `lean/Verif/Spec/*.lean` – small specifications, independent of the model's helpers: grammars, meanings,
  relations between texts and values.
* `lean/Verif/Lemmas/*.lean` – auxiliary lemmas.
* `lean/Verif/Props/*.lean` – the property theorems (one file per area), with `example`s showing that a
  concrete non-trivial case satisfies the hypotheses.
* `properties.jsonl` – the English properties; `MANIFEST.json` – property → theorem names;
  `seeded/LOG.jsonl` – log of deliberately wrong edits of the model and the theorems that rejected them.

## Conventions

* A Python (unicode or byte) string is `List Char` (`Str`).  Code points are `Char.toNat`.  Lone surrogates are
  not representable (stated where relevant); byte strings are strings whose characters are all ≤ 255.
* A Python exception is a value: `Except Err α` or an `Option`; functions that can raise keep the raising branch.
* Loops are structural recursion or well-founded recursion with a proved measure.  A loop that does not
  terminate in the code is a fuel-indexed function, with a theorem that it gives no result for any fuel.
* Python `dict`s are association lists with the last write winning (`Model/Dict`); where iteration order matters
  the code sorts and so does the model, or the theorem quantifies over all orders.
* Floats are integers or rationals where only order and exact arithmetic matter (said so in each place); IEEE
  rounding, infinities and NaN are out of scope.
* Random choices are an argument of the model, so theorems quantify over all of them.

## Trusted base

* Lean 4.33.0's kernel.  No axioms are added; the axioms each theorem depends on are listed at the end and are at
  most `propext`, `Classical.choice`, `Quot.sound`.  No `sorry`, `native_decide` or `bv_decide`.
* That the model definitions transcribe the cited Python faithfully (checked by reading and by the seeded-bug
  log).
* Mathlib is imported module by module, for lemmas only; the specifications use core definitions.

## Properties: what is modelled and how it is proved

| id | property | model | status | proof |
|----|----|----|----|----|
| C01 | Escaped character data reads back unchanged | `Model/XmlUtils`: `XMLString`, the tokenizer of `XMLParser` | proved | induction on the string, one lemma per escape form |
| C02 | Escaped attribute values cannot break out of their quotes | same, with `ParseAttValue` | partial | exact guard by induction; witness with a double quote |
| C03 | Escaped output is plain ASCII | `XMLString` | partial | exact guard by induction; witness U+0080 |
| C04 | Migration messages never corrupt the output item | `EncodeComment`, comment assembly of `QTIItem.CloseObject` | proved | induction with an invariant on the last character |
| C05 | Path segment encoding is lossless and produces a single safe segment | `EncodePathSegment`, `DecodePathSegment` | proved | kernel check of the 256 codes as a lemma, then induction on the string |
| C06 | Different media files get different hrefs | `AddCPFile` histories | partial | invariant over histories, injectivity of the encoding; witness above U+00FF |
| C07 | Writing a package never touches files outside the package directory | `ResolveCPURI`, `os.path.join/split`, `DumpToDirectory` | partial | induction on segments; three witnesses |
| C08 | Resource identifiers in a package are unique | `Model/ContentPackage`: the package as a state machine | proved | invariant over lists of operations; termination of the name search by pigeonhole |
| C09 | Generated identifiers are legal XML identifiers | `Model/ContentPackage`: the package as a state machine | partial | invariant over lists of operations; termination of the name search by pigeonhole |
| C10 | File names in a package are never reused for different content | `Model/ContentPackage`: the package as a state machine | proved | invariant over lists of operations; termination of the name search by pigeonhole |
| C11 | No package file overwrites the manifest | `Model/ContentPackage`: the package as a state machine | partial | invariant over lists of operations; termination of the name search by pigeonhole |
| C12 | Response conditions keep their order-and-stop meaning | `Model/RespProc`: `AddRespCondition` building rule trees | proved | induction over the list, generalised over the insertion point; interpreter in `Spec/RespProc` |
| C13 | Different source variables become different variables | `Model/ItemVars`: the variable tables of `QTIItem` | proved | invariant over lists of operations |
| C14 | Every variable used by a migrated item is declared in it | `Model/ItemVars`: the variable tables of `QTIItem` | partial | invariant over lists of operations |
| C15 | Outcome limits are enforced | `Model/V1Resp`: rules for limits, run by `Model/QtiRun` | partial | induction over the outcomes; clamping lemma over rationals |
| C16 | setvar actions keep their arithmetic meaning | `Model/V1Resp.setVar`, run by `Model/QtiRun` | partial | case analysis over actions with the arithmetic theorems of C63 |
| C17 | Condition expressions keep their meaning | `Model/V1Resp`: `conditionVar` and the tests; evaluator `Model/QtiExpr` | partial | mutual induction over conditions with a three-valued agreement relation; meaning of conditions in `Spec/V1` |
| C18 | Area coordinates keep their numbers | `Model/Shapes`: `ConvertAreaCoords` | partial | induction over the characters; region meaning in `Spec/Shapes` |
| C19 | Unsupported elements have no effect | `Model/SaxDriver`: the class stack of the parser | proved | induction over well-nested event trees |
| C20 | Flow grouping keeps every piece of content in order | `Model/Html`: `FlowV1.CloseObject` | partial | induction over children with the pending paragraph |
| C21 | Embedded HTML always produces balanced element events and keeps the text | `Model/Html`: `ParseTextTokens` and the builders | partial | stack invariant |
| C22 | The embedded-markup tokenizer always finishes and loses no plain text | `Model/XmlUtils`: the tokenizer as a total function | partial | termination by the length of the remaining input |
| C23 | RTF conversion always finishes with balanced tags | `Model/Rtf`: `RTFParser` | partial | invariants of the loop; measure; a cycle of states for the endless case |
| C24 | Windows character repair preserves the text and is idempotent | `Model/WinChars`: `FixFile` on byte lists | partial | per-byte table by kernel check, then induction |
| C25 | Converted identifiers are legal and stable | `Model/Names`: `ReadIdentifier`, `ValidateIdentifier` | proved | per-character lemmas, induction |
| C26 | Warnings are reported once | `Model/Shell`: `PrintWarning` | proved | list induction |
| C27 | Calendar arithmetic is exact | `Model/Calendar`: dates of `pyslet/iso8601.py` | proved | integer arithmetic (`omega`), day-count induction; calendar in `Spec/Calendar` |
| C28 | Time-zone offsets keep their sign | `Model/Calendar`: zone readers | partial | case analysis; witness -05:00 |
| C29 | No educational description is lost or repeated | `Model/ManifestXml.writeLom` | partial | XML grammar of `Spec/Xml`; list induction; finding elements by name in the tree read |
| C30 | Shell paging never shows items out of range | `Model/Shell`: `PrintPage` | proved | arithmetic on windows of a list |
| C31 | Every local media file of an item is written with the package | `Model/ContentPackage`: adding and dumping files | partial | invariant over histories; witness with a colon |
| C32 | Character classes behave as sets | `Model/CharClass`: range lists; a heap of shared range cells for aliasing | partial | sortedness invariant, correctness of binary search |
| C33 | Equal character classes compare equal | `Model/CharClass`: range lists; a heap of shared range cells for aliasing | partial | sortedness invariant, correctness of binary search |
| C34 | Copies of character classes are independent | `Model/CharClass`: range lists; a heap of shared range cells for aliasing | partial | sortedness invariant, correctness of binary search |
| C35 | URI escaping round-trips | `Model/Uri`: `pyslet/rfc2396.py` | proved | induction over strings and segment lists; grammar in `Spec/Uri` |
| C36 | URI components recompose to the URI | `Model/Uri`: `pyslet/rfc2396.py` | proved | induction over strings and segment lists; grammar in `Spec/Uri` |
| C37 | Path normalization terminates, removes navigation and is stable | `Model/Uri`: `pyslet/rfc2396.py` | proved | induction over strings and segment lists; grammar in `Spec/Uri` |
| C38 | Relative references resolve back | `Model/Uri`: `pyslet/rfc2396.py` | partial | induction over strings and segment lists; grammar in `Spec/Uri` |
| C39 | Unpacking a package archive never writes outside its directory | `Model/CpFiles`: files of `pyslet/imscpv1p2.py` over a tree of paths | proved | invariants over entry lists, induction over directory trees; paths in `Spec/Files` |
| C40 | New package files get fresh paths inside the package | `Model/CpFiles`: files of `pyslet/imscpv1p2.py` over a tree of paths | partial | invariants over entry lists, induction over directory trees; paths in `Spec/Files` |
| C41 | The manifest is protected | `Model/CpFiles`: files of `pyslet/imscpv1p2.py` over a tree of paths | partial | invariants over entry lists, induction over directory trees; paths in `Spec/Files` |
| C42 | Shape geometry helpers terminate and are correct | `Model/Shapes`: helpers of `pyslet/qtiv2/core.py` | partial | fuel-indexed loops; never-ending proved for every fuel |
| C43 | Polygon hit testing follows the even-odd rule | `Model/Shapes`: `TestPoint` | proved | even-odd rule in `Spec/Shapes`, induction over edges, rational arithmetic |
| C44 | Name tests agree with the XML grammar | `Model/Names`: name tests | partial | range tables against the XML grammar |
| C45 | Distinct source identifiers stay distinct | `Model/Names` | partial | injectivity by induction; witness a.b / a_b |
| C46 | Views are legal in the target format | `Model/Names`: views | partial | case analysis |
| C47 | Weekdays and week dates are exact | `Model/Calendar` | proved | integer arithmetic; induction over days |
| C48 | Impossible week dates are rejected | `Model/Calendar` | partial | integer arithmetic; induction over days |
| C49 | Moving a date by an offset is exact | `Model/Calendar` | partial | integer arithmetic; induction over days |
| C50 | Julian dates are exact | `Model/Calendar` | partial | integer arithmetic; induction over days |
| C51 | Time arithmetic and zone shifts preserve the instant | `Model/Calendar` | partial | integer arithmetic; induction over days |
| C52 | Time points compare as instants | `Model/Calendar` | partial | integer arithmetic; induction over days |
| C53 | Unescaping replaces the escapes and nothing else | `Model/Uri`: `pyslet/rfc2396.py` | partial | induction over strings and segment lists; grammar in `Spec/Uri` |
| C54 | Server authorities are split without loss | `Model/Uri`: `pyslet/rfc2396.py` | partial | induction over strings and segment lists; grammar in `Spec/Uri` |
| C55 | Components of a URI have the shape of the grammar | `Model/Uri`: `pyslet/rfc2396.py` | partial | induction over strings and segment lists; grammar in `Spec/Uri` |
| C56 | Canonical URI text is equivalent, legal and stable | `Model/Uri`: `pyslet/rfc2396.py` | proved | induction over strings and segment lists; grammar in `Spec/Uri` |
| C57 | Path segments split into name and parameters without loss | `Model/Uri`: `pyslet/rfc2396.py` | proved | induction over strings and segment lists; grammar in `Spec/Uri` |
| C58 | Unicode URIs become legal URIs | `Model/Uri`: `pyslet/rfc2396.py` | proved | induction over strings and segment lists; grammar in `Spec/Uri` |
| C59 | An exported package unpacks to the same files | `Model/CpFiles`: files of `pyslet/imscpv1p2.py` over a tree of paths | proved | invariants over entry lists, induction over directory trees; paths in `Spec/Files` |
| C60 | Deleting a package file removes it everywhere and nothing else | `Model/CpFiles`: files of `pyslet/imscpv1p2.py` over a tree of paths | partial | invariants over entry lists, induction over directory trees; paths in `Spec/Files` |
| C61 | Logical operators follow three-valued logic | `Model/QtiValue`, `Model/QtiExpr`: the evaluator of `pyslet/qtiv2/expressions.py` | partial | case analysis over operators, mutual induction over expressions |
| C62 | Container operators compute what QTI says | `Model/QtiValue`, `Model/QtiExpr`: the evaluator of `pyslet/qtiv2/expressions.py` | partial | case analysis over operators, mutual induction over expressions |
| C63 | Arithmetic operators are exact and NULL-strict | `Model/QtiValue`, `Model/QtiExpr`: the evaluator of `pyslet/qtiv2/expressions.py` | proved | case analysis over operators, mutual induction over expressions |
| C64 | Evaluation never produces an ill-typed value | `Model/QtiValue`, `Model/QtiExpr`: the evaluator of `pyslet/qtiv2/expressions.py` | proved | case analysis over operators, mutual induction over expressions |
| C65 | Response processing changes outcome variables only | `Model/QtiRun`: `processing.py`, session state of `variables.py` | proved | mutual induction over rules |
| C66 | An assigned value reads back | `Model/QtiRun`: `processing.py`, session state of `variables.py` | partial | mutual induction over rules |
| C67 | Attempts of a non-adaptive item are scored independently | `Model/QtiRun`: `processing.py`, session state of `variables.py` | partial | mutual induction over rules |
| C68 | Mapped scores count each distinct answer once, within the bounds | `Model/QtiValue`: `Mapping`, `AreaMapping`, lookup tables | proved | induction over entries and answers |
| C69 | Lookup tables use the first matching entry | `Model/QtiValue`: `Mapping`, `AreaMapping`, lookup tables | partial | induction over entries and answers |
| C70 | Operator attributes may refer to variables | `Model/QtiExpr`: attribute references | partial | case analysis |
| C71 | String operators test what they say | `Model/QtiValue`, `Model/QtiExpr`: the evaluator of `pyslet/qtiv2/expressions.py` | partial | case analysis over operators, mutual induction over expressions |
| C72 | Numbers and truth values in schema notation are read exactly when legal | `Model/XsdText`: readers and writers of schema types | proved | grammar in `Spec/XsdText`, induction over the text |
| C73 | A migrated item gives the scores and feedback of the original | `Model/V1Resp.responseProcessing`, run by `Model/QtiRun` | partial | simulation of version 1 scoring (`Spec/V1.Scored`) composed from C12, C15, C16, C17 |
| C74 | RTF text and formatting survive | `Model/Rtf`: `RTFParser` | partial | documents and their meaning in `Spec/Rtf`; simulation by induction over the written document |
| C75 | Unreadable RTF is reported with the documented error | `Model/Rtf`: `RTFParser` | partial | invariants of the loop; measure; a cycle of states for the endless case |
| C76 | Attempts begin with the default outcomes | `Model/QtiRun.setOutcomeDefaults` | partial | induction over the outcomes |
| C77 | Written items are well-formed XML that carries the item | `Model/ItemXml`: the `WriteXML` methods of `imsqti.py` | partial | XML grammar as a relation between text and tree (`Spec/Xml`), proved unambiguous; the tree of an item in `Spec/ItemXml`; mutual structural induction over elements, expressions and rules |
| C78 | The manifest is well-formed XML that lists the package | `Model/ManifestXml`: `WriteManifestXML`, `WriteIMSXML`, `QTIMetadata.WriteXML` | partial | XML grammar of `Spec/Xml`; trees up to layout in `Spec/ManifestXml`; composition of readings of the parts |
| C79 | The metadata of an item survive migration | `Model/ItemMeta`: the `QMD…` classes, `QTIMetadataField`, `QTIItem` | partial | facts told by each piece in `Spec/ItemMeta`; fold over the facts, place by place |
| C80 | Values attributed to LOM are terms of LOM | `Model/ItemMeta` | partial | invariant over the pieces of metadata |
| C81 | The QTI metadata describe the item | `Model/ItemMeta`: `start`, `closeItem` | proved | what reading metadata leaves alone; dictionary keys as a list without repeats |
| C82 | Test forms follow the selection and ordering rules | `Model/TestForm`: `TestForm` | partial | arrangements as mutual inductive relations (`Spec/TestForm`); invariant of selection; mutual structural induction over sections |
| C83 | A form can always be made of a test whose rules can be followed | `Model/TestForm`: `TestForm.Select` | partial | mutual structural induction over sections; pigeonhole for selection |
| C84 | Every form that the rules allow can occur | `Model/TestForm`: `TestForm.Select` | partial | random numbers constructed backwards from the arrangement, by mutual structural induction |
| C85 | A form tells where its components are | `Model/TestForm`: `find` | proved | induction over the form |
| C86 | A test session only goes forward | `Model/TestSession`: `TestSessionState` | proved | a relation of what moving on does; invariant over all histories of requests |
| C87 | The next question is the first that may be asked | `Model/TestSession`: `_NextQuestion` | partial | well-founded recursion; induction over the walk through the form |
| C88 | Branch rules go where they say | `Model/TestSession`: `_BranchTarget` | partial | induction over the rest of the form |
| C89 | Time is counted where it is spent | `Model/TestSession`: `AddDuration`, requests | proved | balanced forms as an inductive relation; induction over them and over histories |
| C90 | A session key works once | `Model/TestSession`: `EventUpdate`, requests | proved | invariant over all histories of requests |
| C91 | Every navigation and submission mode can be delivered | `Model/TestSession`: requests | partial | case analysis of requests; the walk through the form |
| C92 | Names of variables are resolved in the right place | `Model/TestSession`: `GetNamespace` | proved | induction over names; uses C85 |
| C93 | Everything shown by a question is shown after migration | `Model/Presentation` | partial | induction over flows and materials; fold invariants of what stands before and after the choices |
| C94 | Each question of an item has a response of its own | `Model/Presentation` | proved | invariant of the declared names over the whole walk |
| C95 | A response has a type that suits its question | `Model/Presentation` | partial | the same invariant with a table of allowed types |
| C96 | Choices are kept | `Model/Presentation` | partial | a response located in the walk; induction over labels |
| C97 | A question allows as many answers as in the source | `Model/Presentation` | partial | case analysis on the located interaction |
| C98 | Blanks in a text are asked one by one and put together | `Model/Presentation` | partial | indexed names in the walk; counterexample by evaluation |
| C99 | Regions of an image are kept | `Model/Presentation` | partial | a response located in the walk; induction over labels and images |
| C100 | A slider keeps its settings | `Model/Presentation` | partial | a response located in the walk; truncation of rationals |
| C101 | Feedback, rubrics and objectives show what they showed | `Model/Presentation` | partial | structural induction over material |
| C102 | Presentations do not make the converter fail | `Model/Presentation` | partial | error predicates closed under sequencing; induction over flows |
| C103 | A text question keeps its field | `Model/Presentation` | proved | a response located in the walk; case analysis of the attributes |
| C104 | Feedback is displayed when the source displays it | `Model/Presentation`, `Model/V1Resp` | partial | execution of the rule in any state; conversion of identifiers |
| C105 | Pages of a data feed partition it | `Model/Paging`: `iterpage` | proved | induction over pages; hexadecimal tokens round-trip |
| C106 | A client that follows next links gets what it asked for | `Model/Paging`: `feed`, `follow` | partial | induction over pages; counterexamples by evaluation |
| C107 | Paged results are in the order asked for | `Model/Paging`: `OrderEntities` | proved | stable sorting refines a lexicographic order |
| C108 | What is written to a data store is read back | `Model/MemStore` | partial | mutual induction over types and values; invariant over all histories |
| C109 | Inserting an entity replaces none | `Model/MemStore`: `InsertEntity`, `NextKey` | partial | pigeonhole for the search of a free key |
| C110 | A selection of properties does not change which entities are returned | `Model/MemStore`: `itervalues`, `__len__` | partial | sorting and filtering commute with projection |
| C111 | A key is in a collection exactly if it is listed | `Model/MemStore`: lookup and listing | partial | invariant of unique keys; induction over links |
| C112 | A media stream belongs to the entity it was given to | `Model/MemStore`: streams | partial | invariant over all histories |
| C113 | Navigation in both directions agrees | `Model/MemLinks` | proved | invariant over all histories, mutual induction over nested bindings |
| C114 | Links lead to entities that exist | `Model/MemLinks` | partial | invariant over histories: each link is at an indexed end of existing entities |
| C115 | The multiplicity of an association is not exceeded | `Model/MemLinks`: `__setitem__`, `Replace` | partial | invariant over all histories |
| C116 | Required links are there | `Model/MemLinks`: bindings, `CheckNavigationConstraints` | partial | mutual induction over nested bindings; composition of what deletions keep |
| C117 | Deleting an entity deletes what requires it and nothing else | `Model/MemLinks`: `__delitem__` | partial | induction over the depth with the set of entities being deleted; measure of those not yet being deleted |
| C118 | An operation that fails has no effect | `Model/MemLinks` | partial | case analysis of each operation |
| C119 | Threads that link entities do not interfere | `Model/MemLinks`: `step`, `threads` | partial | induction over schedules |
| C120 | Linking, unlinking and replacing do what they say | `Model/MemLinks`: `link`, `unlink`, `replace` | proved | case analysis from the invariant of both indexes |
| C121 | An entity is linked to what was bound to it | `Model/MemLinks`: `bind`, `binds` | partial | mutual induction: what handling bindings can remove |
| C122 | Options mean the same wherever they are given, and everything else is an input | `Model/CommandLine`: `readArgs` | partial | induction over arguments; classification of an argument |
| C123 | An existing directory is not written to without consent | `Model/CommandLine`: `cpout`, `batch`, `guiCpPath` | partial | induction over arguments with the questions put so far |
| C124 | Every XML file below the inputs is converted once, and nothing else | `Model/CommandLine`: `processFiles`, `isXml` | partial | mutual induction over directory trees |
| C125 | A file that cannot be converted does not spoil the others | `Model/CommandLine`: `parseDoc`, `batch`, `exitStatus` | partial | induction over files, for arbitrary element classes |
| C126 | The options of a conversion do not affect later ones | `Model/CommandLine`: `newParser`, `conversions` | partial | induction over conversions |
| C127 | The comment of a file describes the item or the package | `Model/CommandLine`: `rootElement`, `closeRoot` | partial | induction over the parts of a file and over files |
| C128 | Reading a header value comes to an end | `Model/HttpWords`: `words`, `wordLoop` | partial | strong induction over the text; exact description of the texts at which the loop is stuck |
| C129 | Quoted text is read back | `Model/HttpWords`: `quoteString`, `decodeQuoted`, `words` | partial | induction over the text |
| C130 | A media type is read back from its text | `Model/HttpValues`: `MediaType.format`, `mediaTypeFromString` | partial | induction over the parameters |
| C131 | An Accept header is read back from its text | `Model/HttpValues`: `formatAccept`, `acceptFromString`, `qualityOf` | partial | induction over items and parameters; the 1001 qualities are all values of the domain |
| C132 | Content negotiation selects the best acceptable media type | `Model/HttpValues`: `selectType`, `acceptList`, `negotiate` | partial | the order of items as a comparison; stable sorting; invariant of the selection loop |
| C133 | Negotiation of character sets, encodings and languages selects the best | `Model/HttpValues`: `selectToken`, `selectCharset`, `selectEncoding`, `selectLanguage` | partial | invariants of the selection loops |
| C134 | Products and versions are put in order | `Model/HttpValues`: `explode`, `cmpProduct`, `cmpVersion` | partial | lexicographic orders; induction over the versions |
| C135 | Versions, products, language tags, entity tags and byte ranges are read back | `Model/HttpValues`: `format` and `…FromString` | partial | induction over the text and over lists |
| C136 | Equal values are the same dictionary key | `Model/HttpValues`: `hashKey`, `MediaType.hashed` | partial | equality of the tuples that are hashed |
| C137 | A date in a header is read back | `Model/HttpDate`: `formatFullDate`, `fullDateFromString`; `Spec/HttpDate` | partial | reading each format word by word; the calendar theorems of C47 |
| C138 | A malformed header value is reported as a syntax error | `Model/HttpWords`, `Model/HttpValues`, `Model/HttpDate` | partial | closure of a predicate on parsing methods under their combination; induction over words |
| C139 | URI literals are read as the values they stand for | Model/ODataLit | proved | relation between texts and values; each reader shown to consume exactly the literal before a separator |
| C140 | Literals survive being written and read | Model/ODataLit | partial | the written text satisfies the relation of C139 |
| C141 | Filter expressions mean what precedence says | Model/ODataExpr | partial | grammar with levels as an inductive relation; induction over derivations against the operator stack, with a recursion budget proved sufficient |
| C142 | Expressions survive being written and read | Model/ODataExpr | partial | induction over trees: the written text satisfies the grammar of C141 |
| C143 | Bad expressions raise ValueError and reading ends | Model/ODataExpr | partial | induction over the budget with the length of the rest |
| C144 | Operands are promoted to a common type | Model/ODataEval | proved | table of all pairs of types against an inductive relation; case analysis of casts with bounds of the rounding |
| C145 | Integer arithmetic is exact or refused | Model/ODataEval | partial | promotion, then integer arithmetic; for division an error bound of the rounded quotient shows that cutting it is exact; refutations for every faithful rounding |
| C146 | Comparisons agree with each other and with the values | Model/ODataEval | partial | three-way comparisons proved to be mirror images; lexicographic order by induction on lists |
| C147 | and, or and not follow two-valued logic | Model/ODataEval | proved | case analysis of types |
| C148 | String and date methods return what they say | Model/ODataEval | proved | induction on strings |
| C149 | Rounding is to the nearest integer | Model/ODataEval | proved | floor and ceiling bounds on rational numbers; uniqueness of the nearest integer |
| C150 | Evaluating an expression raises only EvaluationError | Model/ODataEval | partial | mutual induction over expressions with the invariant that values fit their types |
| C151 | The value of an expression depends on the named properties only | Model/ODataEval | proved | mutual induction over expressions |
| C152 | Paths of $expand and $select are read as the tree of these paths | Model/ODataOptions | proved | induction on lists of paths; merging of a path into nested dictionaries; soundness of the identifier reader |
| C153 | $expand and $select are written canonically and read back | Model/ODataOptions | proved | longest paths of a tree; a sorted permutation is unique |
| C154 | Rules of $orderby are read as written | Model/ODataOptions | partial | induction on rules over the expression reader |
| C155 | A resource path is accepted exactly if it has one of the forms of OData | Model/ODataUri | partial | induction on segments against an inductive relation of path shapes |
| C156 | What is below the service root is read, and nothing else | Model/ODataUri | partial | case analysis over the URI parser of Model/Uri |
| C157 | Names and keys of a segment are read as written | Model/ODataUri | partial | undoing of escapes (C54) and UTF-8 decoding; induction on the keys |
| C158 | The key of an entity in a URI is read back | Model/ODataUri | partial | escaping is the identity on plain text; C140 and C157 |
| C159 | System query options are read as written, in any order and escaping | Model/ODataUri | proved | induction on the options; UTF-8 decoding inverts encoding (Lemmas/Utf8) |
| C160 | Only options that go with the path are accepted | Model/ODataUri | proved | case analysis of path options |
| C161 | Reading a URI ends and raises only documented errors | Model/ODataUri | partial | error invariants over all readers; induction on brackets and quotes of header words |
| C162 | Parameters of service operations are read as written | Model/ODataUri | partial | invariant of the parameter table over the rest of the query |
| C163 | A path of an OData request leads to one resource or fails with a definite status | Model/ODataServer | partial | relation of paths and resources; induction on the path |
| C164 | Keys of an OData path pick the entity with these values | Model/ODataServer | partial | induction on the key properties |
| C165 | Query options are tested against the resource that is found | Model/ODataServer | proved | case analysis of resources against the table of options |
| C166 | Reading changes nothing, and a server for reading only changes nothing | Model/ODataServer | partial | case analysis of the dispatch, for an arbitrary store |
| C167 | A request that is refused changes nothing | Model/ODataServer | partial | invariant of all branches, for an arbitrary atomic store |
| C168 | $count is the number of entities | Model/ODataServer | partial | rewriting from the relation of paths |
| C169 | A method that a resource does not have is refused | Model/ODataServer | partial | case analysis of the dispatch |
| C170 | Every OData request is answered | Model/ODataServer | partial | error invariants of all branches; totality of negotiation |
| C171 | Errors of the client are not reported as errors of the server | Model/ODataServer | partial | error invariants of all branches |
| C172 | Null values and missing entities are not found | Model/ODataServer | proved | rewriting from the relation of paths |
| C173 | A resource is shown in the best acceptable media type | Model/ODataServer, Model/HttpValues | partial | best of a list by qualities, from the selection of media types |
| C174 | Versions of the protocol are negotiated | Model/ODataServer | partial | words of a header; case analysis of versions |
| C175 | The library's migration keeps the order of response conditions | Model/PyMigrate | proved | induction on the conditions; refinement to the construction of Model/RespProc, whose meaning is proved for all interpretations (C02) |
| C176 | The library's migration keeps the meaning of conditions | Model/PyMigrate, Model/Qti | partial | mutual induction over conditions against the version 1 semantics of Spec/V1 |
| C177 | The library's migration keeps the arithmetic of setvar | Model/PyMigrate, Model/Qti | partial | reduction to the actions of the other converter (C11) |
| C178 | Items migrated by the library score as the originals do | Model/PyMigrate, Model/Qti | partial | simulation of the version 1 semantics by response processing, condition by condition |
| C179 | The library's migration shows the feedback named | Model/PyMigrate, Model/Qti | partial | legal names are fixed points of identifier repair; a literal that is not an identifier fails |
| C180 | The library's migration declares outcomes as the item does | Model/PyMigrate | partial | case analysis of types; dictionary lemmas |
| C181 | The library's migration keeps the regions of areas | Model/PyMigrate, Model/Shapes | partial | induction on the text against its fields; ring arithmetic on regions |
| C182 | The library's migration shows content to the same people | Model/PyMigrate | proved | case analysis of the finite tables, for every text |
| C183 | Every blank of a migrated response has its own response | Model/PyMigrate, Model/Qti | partial | injectivity of numbering; induction on names; union of containers; for the loop induction on the number of rounds |
| C184 | A question that cannot be migrated does not lose the others | Model/PyMigrate | partial | induction on the items |
| C185 | Attributes left out have their default meaning in the library's migration | Model/PyMigrate | partial | rewriting |
| C186 | Every well-formed document is read | Model/PyXml, Model/Names | partial | induction on the derivation in the grammar of XML 1.0, with enough fuel for every construct; concrete documents for the refutation, with monotonicity in the fuel |
| C187 | What is not well-formed is not read | Model/PyXml | partial | inversion of every parsing function, induction on the fuel; an invariant of well-formed documents (their characters, their last character) for the refutation |
| C188 | Reading a document ends | Model/PyXml | partial | what is left is shorter at every step, induction on the fuel; for the loop a state that repeats |
| C189 | What is written can be read back | Model/PyXml | partial | what is written is in the grammar (mutual induction on trees), then C186 |
| C190 | Writing changes only white space, and only where it may | Model/PyXml | proved | mutual induction on trees; a relation between contents for runs of white space |
| C191 | Escaping for ASCII writes only ASCII | Model/PyXml | proved | induction on strings |
| C192 | CDATA sections that are written can be read | Model/PyXml | partial | rewriting |
| C193 | The value of an element is the value set | Model/PyXml | partial | induction on the children |
| C194 | The SQL condition of a filter is read as the filter | Model/SqlExpr | partial | induction on filters; a precedence-climbing reader with a table of levels as specification; invariants on what may follow |
| C195 | The SQL store returns the entities the filter is true of | Model/SqlExpr, Model/ODataEval | partial | induction on filters; three-valued logic and LIKE as inductive relations; concrete witnesses |
| C196 | Comparisons with null find entities | Model/SqlExpr | partial | C194 and three-valued logic |
| C197 | Literals of filters cannot change the SQL | Model/SqlExpr | proved | functional induction on the conversion |
| C198 | Filters the SQL store has no text for are refused | Model/SqlExpr | proved | functional induction on the conversion |
| C199 | A database connection is with at most one thread at a time | Model/SqlPool | proved | invariant of the pool with counters per thread and connection, preserved by every step, induction on schedules |
| C200 | Nested acquires of a thread share one connection | Model/SqlPool | proved | the same invariant |
| C201 | No more connections are open than are allowed | Model/SqlPool | proved | the same invariant with a balance of opened and closed connections |
| C202 | Connections are handed only to the thread that opened them unless they may be shared | Model/SqlPool | proved | the same invariant, with the opener of each connection as ghost state |
| C203 | A thread that waits for a connection is woken up when one is free | Model/SqlPool | partial | invariant: sleeping threads only if all connections are in use or about to be taken; concrete schedules |
| C204 | A connection that cannot be opened does not hinder other threads | Model/SqlPool | partial | invariant of the blocked state; induction on schedules |
| C205 | A closed connection is never handed out | Model/SqlPool | proved | invariant: closed connections are not in the pool; induction on schedules |
| C206 | No connection is closed while a thread uses it | Model/SqlPool | partial | the invariant of C199; concrete schedule |
| C207 | close closes every connection and ends the use of the container | Model/SqlPool | partial | the invariant of C199; concrete schedules |
| C208 | A thread cannot give back the connection of another thread | Model/SqlPool | proved | the invariant of C199 |
| C209 | Literals out of the range of their type are refused | Model/ODataLit, Model/ODataExpr; Spec/ODataRange | proved | inversion of every reader; induction on the fuel of the expression parser with an invariant on the stack of open operators |
| C210 | Reading a database collection by following links is complete | Model/SqlPage | proved | tokens are read back as they were written; the condition of a token selects the rows after it (induction on the columns); induction on the pages with the last row as invariant; strong induction on the rows left |
| C211 | Entities without a value in the order column are read page by page too | Model/SqlPage | partial | inversion of the condition; concrete tables |
| C212 | Long order values do not stop paging | Model/SqlPage | partial | concrete tables for every long text |
| C213 | Pages of a database collection keep to their limits | Model/SqlPage | proved | induction on the rows of the answer |
| C214 | $top limits what is read by following links | Model/SqlPage | partial | concrete table; induction on the rows |
| C215 | An insertion into a SQL store is all or nothing | Model/SqlStore | proved | an invariant of every method in an open transaction (commits nothing, gives the transaction back), by mutual induction over the tree of entities; then the method with its own transaction |
| C216 | An insertion with bindings by key is all or nothing | Model/SqlStore | partial | concrete database |
| C217 | An update of a SQL store is all or nothing | Model/SqlStore | proved | the invariant of C215 for updates |
| C218 | An update with keys or new entities in link tables is all or nothing | Model/SqlStore | partial | concrete database |
| C219 | A deletion is all or nothing if nothing depends on the entity | Model/SqlStore | proved | the invariant of C215 for the loop of a deletion |
| C220 | A deletion with dependent entities is all or nothing | Model/SqlStore | partial | concrete database |
| C221 | Changes of links are all or nothing | Model/SqlStore | proved | the invariant of C215 |
| C222 | What has been inserted is in the database | Model/SqlStore | proved | mutual induction over the tree of entities with growth of the database and the marked objects as invariants |
| C223 | An insertion replaces no entity | Model/SqlStore | proved | inversion of a successful run; C222 |
| C224 | What has been updated is in the database | Model/SqlStore | proved | mutual induction: every other statement keeps data |
| C225 | What has been deleted is gone with all links to it | Model/SqlStore | proved | induction on the depth of cascades with shrinking of the database as invariant |
| C226 | No exception of the database driver reaches the caller | Model/SqlStore | proved | inversion of the pattern of methods |
| C227 | A database without roll back is supported | Model/SqlStore | partial | evaluation for every database |
| C228 | A failed insertion can be tried again | Model/SqlStore | partial | concrete failure |
| C229 | At most one link where the model says so | Model/SqlStore | partial | concrete history; inversion |
| C230 | Removing a link that is not there raises KeyError | Model/SqlStore | partial | concrete database; evaluation |
| C231 | An update can bind a new entity through a foreign key | Model/SqlStore | partial | induction on the bindings |
| C232 | Responses are read however they arrive | Model/HttpMessage | proved | a relation of unit steps (one line or one block), shown to be what the loop does for every cut by induction on the steps and on the pieces; every part of a response is a sequence of steps |
| C233 | Bodies that end with the connection are passed on as they arrive | Model/HttpMessage | proved | the unit steps up to the body, then induction on the pieces |
| C234 | Reading what has arrived comes to an end | Model/HttpMessage | proved | a measure of buffer and state that every round decreases |
| C235 | What is read does not depend on how the bytes arrive | Model/HttpMessage | partial | concrete pieces; C232 |
| C236 | What is no response is an HTTP error | Model/HttpMessage | partial | concrete bytes |
| C237 | Every response of the protocol is read | Model/HttpMessage | partial | concrete responses; C232 |
| C238 | The body of a request is sent as its headers announce it | Model/HttpMessage | proved | induction on the data left in a stream; case analysis of the announced length |
| C239 | A text sent in chunks is well-formed chunks | Model/HttpMessage | partial | concrete text; evaluation |
| C240 | The headers of a request are sent once each | Model/HttpMessage | proved | an invariant of the dictionary of headers; induction on its keys |
| C241 | A header value cannot add other headers | Model/HttpMessage | partial | concrete value; C240 |
| C242 | The HTTP client never manages more connections than allowed | Model/HttpPool | proved | invariant over all schedules |
| C243 | No HTTP connection is used by two threads | Model/HttpPool | proved | invariant over all schedules |
| C244 | A queued HTTP request is on a connection its thread processes | Model/HttpPool | proved | invariant; case analysis of the search |
| C245 | HTTP connections are reused before new ones are made, and closed only for want of room | Model/HttpPool | proved | case analysis of the search under the invariant |
| C246 | One HTTP connection for each thread and target, and no more than allowed | Model/HttpPool | partial | invariant over schedules without kills at work; counterexample |
| C247 | No thread sleeps while an HTTP connection could be had | Model/HttpPool | partial | invariant over schedules without kills at work; counterexample |
| C248 | A closed HTTP request manager makes no connections | Model/HttpPool | partial | induction on schedules; counterexample |
| C249 | Cleaning up spares HTTP connections that were in use lately | Model/HttpPool | partial | induction on the order of the dictionaries; counterexample |
| C250 | HTTP requests are sent one after the other, in the order in which they were queued | Model/HttpConnection | proved | invariant of small steps over every history |
| C251 | HTTP responses go to the requests they answer | Model/HttpConnection | proved | invariant that relates answers, bytes and states |
| C252 | An HTTP request is sent once | Model/HttpConnection | partial | invariant of small steps; counterexamples |
| C253 | A body that waits for 100 Continue is not sent too early | Model/HttpConnection | proved | invariant of small steps over every history |
| C254 | A killed HTTP connection is never opened again | Model/HttpConnection | partial | invariant of small steps; counterexample |
| C255 | Every HTTP request hears once that it is over | Model/HttpConnection | partial | invariant of small steps; counterexamples |
| C256 | HTTP responses that have arrived are passed on | Model/HttpConnection | partial | counterexample; C251 for what is passed on |
| C257 | HTTP responses that are cut off are not taken for whole ones | Model/HttpConnection | partial | counterexamples; C251 for what is whole |
| C258 | HTTP basic credentials are read from what is written | Model/HttpAuth | partial | induction on the octets, by threes; counterexample for all colons |
| C259 | An HTTP protection space is one server | Model/HttpAuth | proved | case analysis of schemes and ports; decimal numerals are unique |
| C260 | HTTP credentials are sent only to the server they were given for | Model/HttpAuth | partial | invariant along exchanges; counterexample |
| C261 | HTTP credentials are known to be good for the union of the paths added | Model/HttpAuth | proved | induction on the history |
| C262 | HTTP credentials are volunteered only at or below paths where they have worked | Model/HttpAuth | partial | C261; invariant along exchanges; counterexample |
| C263 | HTTP redirects come to an end | Model/HttpAuth | partial | counterexample, by induction |
| C264 | HTTP requests that change something are not sent again without asking | Model/HttpAuth | partial | invariant along exchanges; counterexamples |
| C265 | HTTP responses are handled without exceptions | Model/HttpAuth | partial | case analysis; counterexamples |
| C266 | HTTP challenges are read from what is written | Model/HttpAuth | partial | induction on the parameters; refutation for all headers |
| C267 | Parameters of HTTP challenges are found whatever the case of their names | Model/HttpAuth | proved | induction on the parameters |
| C268 | Every HTTP request names its server in the Host header | Model/HttpAuth | proved | invariant along exchanges |
| C269 | An HTTP response is followed by at most one request | Model/HttpAuth | proved | case analysis; C266's refutation bounds the challenges |
| C270 | An HTTP challenge is answered with the credentials for the server | Model/HttpAuth | proved | induction on the list of credentials; C266 |
| C271 | HTTP redirects are followed if and only if they are to be | Model/HttpAuth | proved | case analysis of the exchange |
| C272 | HTTP credentials that have worked are remembered | Model/HttpAuth | proved | C270 and C261 |
| C273 | A deletion leaves everything else alone | Model/SqlStore | proved | induction on the depth; relation along the statements of a run |
| C274 | With a counting token nobody overwrites what they have not seen | Model/Tokens.lean | proved | invariants over all histories of clients |
| C275 | An update repeated after a conflict does not overwrite what the client has not seen | Model/Tokens.lean | partial | refutation by a concrete history; conditional theorem where one holds |
| C276 | Tokens tell apart an entity and another that took its key | Model/Tokens.lean | partial | refutation by a concrete history; conditional theorem where one holds |
| C277 | Clients that select the tokens are safe from clients that do not | Model/Tokens.lean | partial | refutation by a concrete history; conditional theorem where one holds |
| C278 | Whoever is up to date can update | Model/Tokens.lean | proved | invariants over all histories of clients |
| C279 | An entity that was just read can be updated, whatever its token | Model/Tokens.lean | partial | refutation by a concrete history; conditional theorem where one holds |
| C280 | Tokens may be times and GUIDs | Model/Tokens.lean | partial | case analysis of one step |
| C281 | With a token that is a hash nobody overwrites what they have not seen | Model/Tokens.lean | partial | refutation by a concrete history; conditional theorem where one holds |
| C282 | The store in memory keeps clients from overwriting what they have not seen | Model/Tokens.lean | partial | refutation by a concrete history; conditional theorem where one holds |
| C283 | An update changes the selected properties and the tokens, and nothing else | Model/Tokens.lean | proved | case analysis of one step |
| C284 | What is read from entities is what they stand for | Model/XmlEntities | proved | induction on steps; an inductive relation of meaning as specification; what is left on the stack is what is left to mean |
| C285 | Declared entities without cycles are read | Model/XmlEntities | proved | meaning made linear, induction on it; the stack goes down in the order of references |
| C286 | Empty entities are read | Model/XmlEntities | partial | refutation: two references to an empty entity |
| C287 | Recursive entities are rejected | Model/XmlEntities | partial | refutation: a cycle of two states; conditional proof from C284 and C288 |
| C288 | Reading ends if no entity ends with a reference | Model/XmlEntities | proved | a measure that weighs deeper entities less; entities on the stack are different and declared |
| C289 | The text read is bounded by what was written | Model/XmlEntities | partial | refutation for every k, from C285 and uniqueness of meaning |
| C290 | Simple values survive JSON | Model/ODataJson | proved | cases on types |
| C291 | Entities survive JSON | Model/ODataJson | proved | mutual induction on nested values, for every entity of the same shape |
| C292 | DateTime values survive JSON | Model/ODataJson | partial | arithmetic of negative numbers cut towards zero; equivalence; refutations |
| C293 | DateTimeOffset values survive JSON | Model/ODataJson | partial | refutation for all values and texts |
| C294 | Ticks are read as the time they stand for | Model/ODataJson | partial | inversion of reading; refutation at day zero |
| C295 | What JSON sets belongs to the type of the property | Model/ODataJson | proved | inversion of reading, for all JSON values |
| C296 | JSON values of the wrong kind are refused | Model/ODataJson | partial | refutations |
| C297 | Reading an entity sets what the object has and clears the rest | Model/ODataJson | proved | induction on properties |
| C298 | Complex properties may be left out | Model/ODataJson | partial | refutations for all complex properties |
| C299 | Links of new entities survive JSON | Model/ODataJson | partial | induction on links; refutation for all locations |
| C300 | Requests with a property store it | Model/ODataJson | proved | from the round trip of nested values |
| C301 | Bodies without the property or the entity are refused | Model/ODataJson | partial | refutations for all properties and bodies |
| C302 | Setting a complex value to null clears all it holds | Model/ODataCopy | proved | mutual induction on nested values |
| C303 | Copies of entities have their values | Model/ODataCopy | partial | mutual induction: nothing changes; refutations for all entities |
| C304 | A client that reads page by page gets every entity once | Model/ODataFeeds | proved | induction on the number of pages over tokens and numbers to skip |
| C305 | Answers in JSON are complete | Model/ODataFeeds | proved | from the loop of a page |
| C306 | No answer has more entities than the server allows | Model/ODataFeeds | partial | from the loop of a page; refutation for all collections |
| C307 | Links are paged | Model/ODataFeeds | partial | refutation for all collections |
| C308 | Names with prefixes are read as what they mean | Model/XmlNames | proved | mutual induction on trees: declarations in force agree with what is bound |
| C309 | What is written for a tree means that tree | Model/XmlNames | proved | mutual induction on trees: declarations are only added and stay in agreement |
| C310 | Trees made by programs can be written and are read again as they were | Model/XmlNames | proved | from reading and writing |
| C311 | A new prefix is always found | Model/XmlNames | proved | pigeonhole principle on the declared prefixes |
| C312 | A default namespace can be removed | Model/XmlNames | partial | refutation |
| C313 | Documents without meaning under the recommendation are not accepted | Model/XmlNames | partial | refutations, for all prefixes |
| C314 | Attributes are only removed if they are declarations | Model/XmlNames | partial | refutation for all names |
| C315 | Attributes and elements keep their namespaces when written | Model/XmlNames | partial | refutations |
| C316 | Documents that were read can be written | Model/XmlNames | partial | refutation for either order of the dictionary |
| C317 | Documents that were read and written again mean the same | Model/XmlNames | proved | mutual induction on trees: a prefix is found for all that is bound, and no declaration is added |
| C318 | No nonce is accepted twice within 90 minutes | Model/Blti | proved | invariant of what is kept, by induction on histories |
| C319 | Memory for nonces does not grow with the history | Model/Blti | proved | the same invariant |
| C320 | A nonce that was checked in the last 90 minutes is reported | Model/Blti | partial | refutations for every window |
| C321 | Keys have at least the number of bits that is asked for | Model/Blti | partial | counting: enumeration of all byte strings, pigeonhole principle |
| C322 | Different random bytes give different keys | Model/Blti | proved | injectivity by induction on the groups |
| C323 | A consumer with a given key is added and no other is changed | Model/Blti | proved | dictionaries |
| C324 | A generated key never replaces a consumer | Model/Blti | partial | refutation for all bytes |
| C325 | Saved consumers are loaded again | Model/Blti | proved | induction on consumers, reading lines and fields |
| C326 | All consumers that can be added are loaded again | Model/Blti | partial | refutations for all such keys |
| C327 | Loading a file that fails changes nothing | Model/Blti | partial | refutation for all such files |
| C328 | Data accepted for an ABNF rule start with a string of it | Model/Abnf | proved | equivalence of what parsers can still accept before and after each turn; induction on turns, any order |
| C329 | Strings of an ABNF rule are not refused | Model/Abnf | partial | the same equivalence; refutation by evaluation and for all data |
| C330 | Generated data are strings of the rule | Model/Abnf | proved | invariant of result and stack, induction on turns, any random numbers |
| C331 | Adding a rule to a grammar changes no other | Model/Abnf | proved | case analysis |
| C332 | A name means the rule it was defined as | Model/Abnf | proved | strings depend on definitions alone; case analysis |
| C333 | Alternatives can be added to a name | Model/Abnf | partial | refutation for all names with upper case by induction on calls, and by inversion |
| C334 | Rules may be defined in any order | Model/Abnf | partial | refutation by inversion |
| C335 | Data that do not match a rule are reported as invalid | Model/Abnf | partial | induction on turns |
| C336 | Data accepted for a rule are a string of it as a whole | Model/Abnf | partial | refutation for all rests of data |
| C337 | Validation of data ends | Model/Abnf | partial | invariant of an endless run, four shapes by induction |
| C338 | Parsing a file is parsing a string with its contents | Model/Rfc2234 | proved | simulation of the file by the string, with the number of characters dropped from the buffer |
| C339 | A parser that goes back forgets what it tried | Model/Rfc2234 | proved | induction on balanced calls for strings, and the simulation for files |
| C340 | Texts of grammars can be read | Model/AbnfText | partial | induction on turns: concatenations end only with the text; for every parser of elements |
| C341 | Values of enumerations survive writing and reading | Model/Enumeration | proved | dictionaries as lists, induction on declarations and aliases |
| C342 | Names are read in any case | Model/Enumeration | proved | induction on the loop: what is found is a name in lower case |
| C343 | Lists of values survive writing and reading | Model/Enumeration | proved | words of joined words, induction on lists |
| C344 | Dictionaries of values have all values that were read | Model/Enumeration | partial | refutation for all strings |
| C345 | Equal dictionaries of values are written alike | Model/Enumeration | proved | sorting is the same for all orders: insertions commute |
| C346 | Strings that are no names are a ValueError | Model/Enumeration | proved | case analysis |
| C347 | Strings that are no titles are a ValueError | Model/Enumeration | partial | refutation for all white space |
| C348 | Only values of the enumeration are written | Model/Enumeration | partial | refutation for all numbers |
| C349 | Reads give the next bytes of the body | Model/InputWrapper | proved | invariant over histories of reads and seeks, for all splits of the stream |
| C350 | Reading all gives the whole body | Model/InputWrapper | proved | induction on the loop with the invariant |
| C351 | Nothing behind the body is taken from the stream | Model/InputWrapper | proved | invariant |
| C352 | Bodies can be read again from the start | Model/InputWrapper | proved | invariant, then C350 |
| C353 | Lines are read with their line feeds | Model/InputWrapper | proved | induction on the loop with the invariant |
| C354 | All lines can be read | Model/InputWrapper | partial | refutation for all bodies by induction on steps |
| C355 | Blocks are no longer than asked for | Model/InputWrapper | partial | refutation for all sizes; induction for the positive part |
| C356 | Seeking forward skips that many bytes | Model/InputWrapper | partial | refutation by a witness |
| C357 | Seeking behind the end is harmless | Model/InputWrapper | partial | refutation by a witness |
| C358 | Entries that are reset are like new | Model/Atom | partial | computation for all entries, refutation as an equivalence |
| C359 | Feeds that are reset are empty | Model/Atom | partial | refutation for all feeds, and what stays |
| C360 | Types of contents survive writing and reading | Model/Atom | proved | cases of texts; a media type is no name as it has a slash |
| C361 | Values of contents of text can be read | Model/Atom | partial | refutation for all contents |
| C362 | Paths are split into what they were joined from | Model/Vfs | proved | induction on paths |
| C363 | Kinds of paths agree | Model/Vfs | proved | induction on paths |
| C364 | Hooks are set exactly while they are used | Model/Vfs | proved | invariant over histories |
| C365 | Unhooking twice is harmless | Model/Vfs | partial | refutation for all histories, from the invariant |
| C366 | Hooks can be used by several threads | Model/Vfs | partial | refutation by a schedule; refinement of the atomic steps by one thread |
| C367 | Encodings of texts without marks are detected | Model/Sniff | proved | cases of keys for all bytes |
| C368 | Encodings of texts with marks are detected | Model/Sniff | partial | refutation for all texts |
| C369 | Bodies of requests are recognised and then read from the start | Model/Sniff | proved | induction on the loop over the invariant of C349, then C352 |
| C370 | Spaces before XML and JSON do not matter | Model/Sniff | partial | refutation for all bodies, from C369 |
| C371 | Line feeds before XML do not matter | Model/Sniff | partial | refutation for all bodies, from C352 |
| C372 | Marks of UTF-16 and UTF-32 in XML files are recognised | Model/AutoDetect | proved | cases of what follows the mark |
| C373 | XML files without marks are recognised | Model/AutoDetect | proved | search of the table for all second bytes |
| C374 | XML files in UTF-8 with a mark can be opened | Model/AutoDetect | partial | refutation for all files |
| C375 | XML files in EBCDIC are recognised | Model/AutoDetect | partial | refutation for all files |
| C376 | An XML parser sees line feeds for all ends of lines, however the text arrives | Model/XmlLines | proved | one step of the reader, then induction on the text |
| C377 | Line numbers of XML entities count ends of lines | Model/XmlLines | proved | one step of the reader, then induction on the text |
| C378 | Positions in lines of XML entities do not depend on the kind of end of line | Model/XmlLines | partial | refutation for all texts |
| C379 | A byte order mark at the start of an XML entity in UTF-8 is passed | Model/XmlLines | proved | one step of the reader, then the theorem for texts without mark |

The theorems of each property are listed in `MANIFEST.json`.  A status of `partial` means that the property as stated is false of the code (or is proved for a part of its range only); the theorem names of the full-range refutation and of the guarded version are both in the manifest.

## Findings: properties the code does not have

Each is a theorem about a concrete witness; the guarded theorem beside it proves the property where it does hold.

* **C02** Escaped attribute values cannot break out of their quotes: refuted: XMLString leaves double quotes; the partial theorem gives the exact guard (iff no double quote)
* **C03** Escaped output is plain ASCII: refuted at U+0080 (test is ord(c)>128); exact guard proved as an iff
* **C06** Different media files get different hrefs: refuted for names above U+00FF; proved for 8-bit names and any history
* **C07** Writing a package never touches files outside the package directory: refuted for hand-made hrefs; proved for every href the converter generates and for every href with safe segments
* **C09** Generated identifiers are legal XML identifiers: refuted: an auto-generated identifier can be empty; guarded version proved
* **C11** No package file overwrites the manifest: refuted for an item called imsmanifest; guarded version proved
* **C14** Every variable used by a migrated item is declared in it: refuted twice (split-up response dropped by the reset; FEEDBACK not re-declared); guarded version proved for every history
* **C15** Outcome limits are enforced: refuted: a limit of 0 is ignored, fractional limits of integer outcomes are truncated, and a limit on a non-numeric outcome makes processing fail; proved for every non-zero faithful limit of numeric outcomes
* **C16** setvar actions keep their arithmetic meaning: refuted: Divide on an integer outcome always fails; proved for all actions on float outcomes and all others on integer outcomes
* **C17** Condition expressions keep their meaning: refuted: the negation of a test of an unanswered response becomes NULL, which counts as false; varsubstring is turned round; the list of varsubset becomes one identifier; inequalities on text fail.  Proved for all nestings of the other tests, when what is tested inside a not was answered; varinside is not covered
* **C18** Area coordinates keep their numbers: refuted three ways (leading separator; last row and column of every rectangle; ellipses with a diameter below 2); guarded versions proved
* **C20** Flow grouping keeps every piece of content in order: content order proved for all flows; refuted for the empty flow, which becomes an empty paragraph; structure proved for all other flows
* **C21** Embedded HTML always produces balanced element events and keeps the text: balance and event text proved for all inputs; the text of the built elements is refuted for nested qtihtml, tables and lists and proved for all other tags
* **C22** The embedded-markup tokenizer always finishes and loses no plain text: termination is the totality of the model; refuted part: a malformed character reference raises an error other than XMLException
* **C23** RTF conversion always finishes with balanced tags: nesting proved for all inputs; finishing refuted: after \uc-6 the command \u65 is read again for ever; proved for every text in which \uc is nowhere followed by a minus sign
* **C24** Windows character repair preserves the text and is idempotent: idempotence, ASCII output and text (references and bytes) proved for all byte strings; refuted once CDATA sections are taken into account, where references are not recognised; proved for files without them
* **C28** Time-zone offsets keep their sign: refuted: the sign is read and dropped, so -05:00 reads as +05:00; the magnitude is proved to round-trip
* **C29** No educational description is lost or repeated: proved for every LOM (and every manifest within the guards of C78) whose texts are legal XML characters without carriage returns and whose languages have no quotes or line breaks; without that refuted: a control character makes the metadata unreadable
* **C31** Every local media file of an item is written with the package: refuted for names with a colon; proved for all others
* **C32** Character classes behave as sets: proved for every expression of additions, subtractions, unions, differences and complements of classes; refuted for the one aliasing call cls.SubtractClass(cls)
* **C33** Equal character classes compare equal: refuted: two classes with the same members can compare unequal; the converse direction and the exact guard are proved
* **C34** Copies of character classes are independent: refuted: a copy shares its range objects with the original; additions through a class that shares nothing are proved harmless
* **C38** Relative references resolve back: refuted by six witnesses; proved for absolute paths without . and .. under the stated conditions. Missing: pairs of relative paths
* **C40** New package files get fresh paths inside the package: refuted: candidates are looked up as text among keys that are path objects with other hashes, so an existing path can be returned (unique_file_fails). Proved: the search ends after at most one more step than the table has entries, the path is inside the package, paths elsewhere are refused, and the result is new if the suggested path is new or if the look-up by text worked.
* **C41** The manifest is protected: refuted: the test for the manifest compares a method with a string, so the manifest can be added and deleted. Proved: ignored names and paths outside the package are refused.
* **C42** Shape geometry helpers terminate and are correct: refuted for polygons (both loops never end) and for rectangles given by other corners; proved for all other shapes
* **C44** Name tests agree with the XML grammar: refuted above the basic multilingual plane; proved below it, and soundness everywhere
* **C45** Distinct source identifiers stay distinct: refuted: a.b and a_b collide; proved for legal identifiers without dots
* **C46** Views are legal in the target format: refuted: proctor views become invigilator, unknown views are kept; exact guard proved
* **C48** Impossible week dates are rejected: refuted: week 53 is accepted in every year; proved for the weeks a year has
* **C49** Moving a date by an offset is exact: refuted: day zero is taken for 'not given', negative months fail, and combined offsets use the day of the starting date; day and month offsets proved otherwise
* **C50** Julian dates are exact: conversion of every valid date proved; refuted at one day: the day before the first date converts to the first date
* **C51** Time arithmetic and zone shifts preserve the instant: whenever the operations succeed the instant is proved preserved; refuted: 24:00:00 cannot be moved and zones more than a day apart cannot be shifted between. Fractional seconds are not modelled
* **C52** Time points compare as instants: refuted for 24:00 against 00:00 of the next day; proved for ordinary times in zones at most a day apart
* **C53** Unescaping replaces the escapes and nothing else: refuted: a character after % and one hexadecimal digit is dropped; proved when every percent sign begins an escape
* **C54** Server authorities are split without loss: refuted for authorities with a port that is not numeric; proved for [userinfo@]host[:digits]
* **C55** Components of a URI have the shape of the grammar: refuted: a reference that begins with a colon gets an empty scheme; proved for all others
* **C60** Deleting a package file removes it everywhere and nothing else: A successful deletion removes the file, its table entry and all references and nothing else; the table accounts for all referenced files after any addition or deletion. refuted for packages with a reference to a file that is not a local package file: comparing None with a path raises ValueError, so nothing can be deleted (delete_fails).
* **C61** Logical operators follow three-valued logic: and/or/not proved for all operand lists; anyN proved when min <= max, refuted for crossed limits (true instead of false)
* **C62** Container operators compute what QTI says: all proved except contains, refuted: it tests that the second operand contains the first
* **C66** An assigned value reads back: refuted: a multiple container keeps repeated members only once on assignment; proved for all other values
* **C67** Attempts of a non-adaptive item are scored independently: refuted: completionStatus is not reset, and NAME.DEFAULT may clash with a declared variable; proved for all other outcomes
* **C69** Lookup tables use the first matching entry: interpolation proved; match tables refuted for repeated source values (the last entry is used), proved otherwise
* **C70** Operator attributes may refer to variables: refuted: every reference raises AttributeError, as a non-existent library function is called
* **C71** String operators test what they say: refuted for stringMatch with substring=true, which tests containment the other way round; the rest proved
* **C73** A migrated item gives the scores and feedback of the original: proved for all items of conditions, actions and limits that migration keeps (see C15, C16, C17 for those it does not keep)
* **C74** RTF text and formatting survive: refuted: groups do not inherit formatting, escaped characters are dropped, line breaks are kept, characters above U+7FFF fail, colour tables are shown; proved for all documents without these (groups opened in unformatted text, or without formatting and groups in them)
* **C75** Unreadable RTF is reported with the documented error: refuted: negative or missing numbers and a final backslash raise ValueError or TypeError; proved for ASCII text whose \u, \uc and \lang commands have their numbers and which does not end in a backslash
* **C76** Attempts begin with the default outcomes: proved when no outcome has the name under which the default of another is kept (else refuted, default_name_clash), and for defaults that assignment keeps (C66)
* **C77** Written items are well-formed XML that carries the item: refuted: double quotes in attributes are not escaped, feedback titles and the attributes of images and line breaks are dropped, heights depend on widths, zero maxima are dropped, coordinates of areas are separated by spaces, emphasis breaks words; proved for all items without these
* **C78** The manifest is well-formed XML that lists the package: refuted: QTI metadata of a resource without files and LOM are dropped, catalog names are replaced by the entry, a vCard with ]]> can inject elements; proved for all packages without these
* **C79** The metadata of an item survive migration: refuted: fields with most QTI labels are dropped, a second title replaces the first, blank authors and levels make empty entries, a field without entry raises TypeError; proved exactly: what the elements and labels listened to say is kept, the last of single-valued ones
* **C80** Values attributed to LOM are terms of LOM: refuted for the roles creator and owner and for statuses not in lower case; proved for contexts and difficulties, other roles, and statuses up to case
* **C82** Test forms follow the selection and ordering rules: proved for all tests in which no section that is mixed into its parent selects nothing; without that refuted: the form has None among its identifiers
* **C83** A form can always be made of a test whose rules can be followed: proved for tests in which only items are shuffled, and that selection fails just when its rule cannot be satisfied; refuted: a section that shuffles a section always raises AttributeError, an empty section mixed into its parent IndexError
* **C84** Every form that the rules allow can occur: proved for tests in which only items are shuffled; missing: invisible sections mixed into their parents; refuted for shuffled sections (C83)
* **C87** The next question is the first that may be asked: refuted for pre-conditions of sections and parts: a false one is ignored and the contents are asked; proved when only the pre-conditions of items have a say (parts linear, C91)
* **C88** Branch rules go where they say: proved for named targets, EXIT_TEST, EXIT_TESTPART and targets that are not allowed; EXIT_SECTION proved when no section follows in the section, otherwise refuted: the session goes on after the end of the section that follows
* **C91** Every navigation and submission mode can be delivered: refuted: questions of nonlinear parts never come up, and no page is made for parts submitted as a whole; linear parts submitted question by question are delivered (C86-C90)
* **C93** Everything shown by a question is shown after migration: proved when every response has at most one rendering and no material stands where the converter drops it (the exact places are listed in RenderKept, ChoiceKept, TypedPiece); refuted otherwise: text between labels, labels with both text and other material, emphasised text of an unknown type, text around a fill-in without labels, and the prompt of an ordering on an image are lost
* **C95** A response has a type that suits its question: proved when every numerical response says its type; refuted for the default type: a slider is bound to a response for identifiers
* **C96** Choices are kept: contents proved for labels with only text or only other material (otherwise lost, see C93); identifiers, order, shuffling and fixing proved in full
* **C97** A question allows as many answers as in the source: proved when the response is single or the maximum is given; refuted otherwise: a multiple response without a maximum allows one answer
* **C98** Blanks in a text are asked one by one and put together: proved of the presentation; refuted of items with response processing after it: the declaration and the rule are thrown away when response processing starts
* **C99** Regions of an image are kept: proved when the image is the first thing in the rendering; refuted otherwise: further images are lost, and formatted text in a region is an internal failure
* **C100** A slider keeps its settings: bounds, steps and orientation proved; refuted for the rest: the start value and the labelling of steps are lost, and without these attributes there is an internal failure
* **C101** Feedback, rubrics and objectives show what they showed: proved without emphasised text of an unknown type, which is lost; objectives for all with a line break or image are an internal failure
* **C102** Presentations do not make the converter fail: proved for renderings that suit their response, sliders with their attributes and regions given by whole numbers; refuted otherwise
* **C104** Feedback is displayed when the source displays it: proved for every rule up to conversion of identifiers and exactly for names that migration keeps; refuted for names with characters that are replaced, which may be confused
* **C106** A client that follows next links gets what it asked for: the client gets every entity once: proved; refuted: a last page that is exactly full has a next link, to an empty page, and a $top larger than the server's page is forgotten in the next link, so that more is returned than asked for
* **C108** What is written to a data store is read back: proved for updates, for reading with a selection, and for inserting entities with all properties; refuted for inserting an entity with a selection, whose values are read back as those of other properties
* **C109** Inserting an entity replaces none: proved for generated keys and collections without a filter; refuted through a collection with a filter, which replaces an entity hidden by the filter
* **C110** A selection of properties does not change which entities are returned: proved when filter and ordering look only at selected properties and keys; refuted otherwise: unselected properties are null when the filter and the order look at them, while the count ignores the selection
* **C111** A key is in a collection exactly if it is listed: proved for entity sets with any options and for linked entities without a filter; refuted for linked entities with a filter, whose test is the wrong way round
* **C112** A media stream belongs to the entity it was given to: proved for histories that write streams to existing entities; refuted for a stream written through an object of a deleted entity, which the next entity with this key inherits
* **C114** Links lead to entities that exist: proved for all histories, failures included, in which no object of a deleted entity is used; refuted with such an object: linking from it and replacing by it are accepted
* **C115** The multiplicity of an association is not exceeded: proved in every history for ends with multiplicity 1 and for ends with 0..1 that have no navigation property; refuted for the others: replacing does not check the other end
* **C116** Required links are there: proved when every operation succeeds or has no effect, no object of a deleted entity is used and no association of a set with itself requires its second end; refuted otherwise: an insertion whose binding fails leaves the entity behind without its link, and in such an association deletion follows the wrong direction
* **C117** Deleting an entity deletes what requires it and nothing else: termination proved; exactness proved for every deletion that succeeds; success proved for entities nothing requires; refuted: with requirements between dependents a deletion fails half way, an entity at the required end of an association without navigation properties can never be deleted, and associations of a set with itself are followed in the wrong direction
* **C118** An operation that fails has no effect: proved for linking, unlinking, replacing, refused insertions and operations on entities that do not exist; refuted for insertions with bindings that fail and for deletions that fail half way
* **C119** Threads that link entities do not interfere: agreement of both directions and presence of reported links proved for all schedules; multiplicities proved for uninterrupted threads; refuted for the others: two threads both check before either adds
* **C121** An entity is linked to what was bound to it: proved for bindings of any depth when the entity is not bound to itself and no object of a deleted entity is used; refuted for an entity bound to itself, whose binding a later one in the opposite direction removes
* **C122** Options mean the same wherever they are given, and everything else is an input: proved for all options but --nocomment and, apart from inputs, --version; refuted: --nocomment has no effect, --x, which the help text names, is taken for an input (the code looks for -x), and --version writes an empty package if --cpout= precedes it
* **C123** An existing directory is not written to without consent: proved for the command; refuted for the window, which does not ask
* **C124** Every XML file below the inputs is converted once, and nothing else: proved when all names can be opened, and once for one input or for inputs that are different entries of the current directory; refuted for overlapping inputs, whose files are converted twice
* **C125** A file that cannot be converted does not spoil the others: proved for files that are not well-formed; refuted for names that do not exist and for files at which an element class raises an exception, both of which abort the run before anything is written, and for the exit status, which is always 1
* **C126** The options of a conversion do not affect later ones: exactly which conversions recognise extensions is proved; refuted: a conversion with --qmdextensions changes the table that later ones use
* **C127** The comment of a file describes the item or the package: proved for comments of root elements that are closed, at most one in each; refuted: the comment of a file that is cut off is lost although its items are kept, and comments elsewhere are dropped
* **C128** Reading a header value comes to an end: proved for text without control characters other than tabs and folded lines, and exactly for text without brackets and quotes; refuted: a control character makes every reader run for ever
* **C129** Quoted text is read back: proved for quoted text of octets and for values that are not empty; refuted: an empty value is written as nothing, and an unclosed quote loses a character
* **C130** A media type is read back from its text: proved for parameters with values that are not empty; refuted for empty values
* **C131** An Accept header is read back from its text: proved for parameters with values that are not empty and not called q; refuted for empty values, for a parameter q and for empty list elements
* **C132** Content negotiation selects the best acceptable media type: proved for ranges that follow the grammar; refuted for wildcards with parameters, which are ignored
* **C133** Negotiation of character sets, encodings and languages selects the best: proved for tokens and character sets, for encodings with at most one candidate called identity, and for languages without repeated ranges; refuted otherwise; if no language is acceptable the text None is selected
* **C134** Products and versions are put in order: the order is proved; refuted: 1, 01 and 1. are equal
* **C135** Versions, products, language tags, entity tags and byte ranges are read back: reading back is proved for all of them; refuted: text that is not a version raises NameError
* **C136** Equal values are the same dictionary key: proved for all but media types; refuted for these, which have no hash
* **C137** A date in a header is read back: proved for the two formats with a full year, and for 1990 to 2089 with two digits; refuted for times in other zones, which are written as GMT, for other years with two digits, and for dates that do not exist, which are DateTimeErrors
* **C138** A malformed header value is reported as a syntax error: proved for text without brackets and quotes, except versions and dates; refuted: an unclosed bracket is a ValueError, a backslash at the end a TypeError, a malformed version a NameError, a date that does not exist a DateTimeError
* **C140** Literals survive being written and read: refuted for times and dates with a fraction of a second: the fraction is not written. Proved for all other values; the text of finite floats is a parameter and is not covered
* **C141** Filter expressions mean what precedence says: refuted: not and a sign in brackets are refused, two prefix operators in a row and one after / lose an operand, a minus before names that begin with inf or nan and properties named like literals are refused; unclosed brackets are accepted. Proved for all other expressions
* **C142** Expressions survive being written and read: refuted: right operand of the same level, negated number literals, paths from negations, casts with one operand. Proved for all other trees
* **C143** Bad expressions raise ValueError and reading ends: refuted for a time whose fraction has no digits (TypeError); proved: it ends, and only ValueError and TypeError occur
* **C145** Integer arithmetic is exact or refused: refuted: two Bytes or Int16s cannot be added at all, and Int64 division goes through floats: 9007199254740993L div 1L is 9007199254740992L. Proved: sums, differences, products and negatives are exact or refused; div and mod are exact for operands below 2^53
* **C146** Comparisons agree with each other and with the values: refuted for nulls of dates and strings (a date is greater than null and the first day of year 1 equals it), and for Bytes, Int16s and Booleans, which cannot be compared. Proved for the rest; numbers of a floating-point and another type are compared after rounding and not covered
* **C150** Evaluating an expression raises only EvaluationError: refuted: ValueError, InvalidOperation, KeyError, TypeError and AttributeError come through. Proved: with known simple properties and without member access only the first two do, and every value fits its type
* **C154** Rules of $orderby are read as written: refuted: other texts are accepted, as in 1asc, and TypeError is raised for times with a bare point. Proved: what is read for the rules of the specification, reading back for the printable trees of C142, termination
* **C155** A resource path is accepted exactly if it has one of the forms of OData: exactly which paths are accepted and how they are read is proved; refuted: $metadata and $batch are accepted after a collection, $links and $count without one, and an unknown option raises ValueError
* **C156** What is below the service root is read, and nothing else: proved for paths below the prefix and paths that do not begin with it; refuted: a path that goes on after the text of the prefix without a slash is taken to be below it. Relative URIs are only shown by example
* **C157** Names and keys of a segment are read as written: proved for literals without commas and equals signs, as they stand in the URI; refuted: a comma or equals sign in a key is an error, escapes in keys are not undone
* **C158** The key of an entity in a URI is read back: proved for single keys whose text needs no escapes; refuted: the string 'a b' comes back as 'a%20b', keys of two parts are an error
* **C161** Reading a URI ends and raises only documented errors: refuted: ValueError and TypeError come through, and a control character in $format makes the constructor run for ever. Proved: nothing else is raised, it ends unless there is a $format, and bad values of the other options are InvalidSystemQueryOption but for times with a bare point
* **C162** Parameters of service operations are read as written: proved for literals as they stand in the query; refuted: escapes in them are not undone
* **C163** A path of an OData request leads to one resource or fails with a definite status: refuted: keys are accepted and ignored after the names of values and of complex parts. Proved: every path leads to exactly one resource or breaks for exactly one reason, with the status stated
* **C164** Keys of an OData path pick the entity with these values: refuted: keys with names that are no key properties are ignored. Proved: which values are looked up, and that the order does not matter
* **C166** Reading changes nothing, and a server for reading only changes nothing: refuted: functions are executed whatever the method is. Proved for all paths that do not begin with a function, and for all other methods of a read-only server
* **C167** A request that is refused changes nothing: refuted: an entity stays inserted though the answer is 406, a media resource though its type cannot be read, a function is executed before its options are tested. Proved for all other requests
* **C168** $count is the number of entities: refuted: $filter and $top are accepted and ignored. Proved without options
* **C169** A method that a resource does not have is refused: refuted: the service document, metadata and counts are returned for every method, and HEAD is refused. Proved for entities, collections, values and links
* **C170** Every OData request is answered: refuted: an Accept header that the reader cannot read makes the report of the error fail too, and one with a control character is never answered. Proved for readable headers
* **C171** Errors of the client are not reported as errors of the server: refuted by five requests. Proved for requests to read without version headers
* **C173** A resource is shown in the best acceptable media type: missing: wildcards with parameters, for which selection is refuted under C132
* **C174** Versions of the protocol are negotiated: refuted: comments in the name of the program, and 500 for a version that cannot be read. Proved for versions, alone or with the name of a program that is a token
* **C176** The library's migration keeps the meaning of conditions: refuted: an index into an ordered response gives a condition that fails, texts are trimmed, and tests for unanswered responses, subsets and substrings stop the migration. Proved for the tests that are converted
* **C177** The library's migration keeps the arithmetic of setvar: refuted: division of integers makes response processing fail, and an outcome that is not declared stops the migration. Proved for decimal outcomes, and for integer outcomes without division
* **C178** Items migrated by the library score as the originals do: refuted: limits are not kept. Proved without limits, for items whose conditions and actions are converted
* **C179** The library's migration shows the feedback named: refuted for every name that is not a legal identifier: the rule fails. Proved for legal names
* **C180** The library's migration declares outcomes as the item does: refuted: outcomes of type Boolean become identifiers, and names with the same identifier stop the migration. Proved for all other types with fresh identifiers
* **C181** The library's migration keeps the regions of areas: refuted: rectangles lose a row and a column, numbers after a leading separator are torn apart, ellipses with fewer than four numbers fail. Proved: what rectangles become, ellipses with even diameters, polygons
* **C183** Every blank of a migrated response has its own response: refuted: if the name for a blank is in use migration never ends; for cardinality Single nothing is declared; for Ordered response processing fails. Proved for unused names, and for Multiple what the added rule does
* **C184** A question that cannot be migrated does not lose the others: refuted: an item that cannot be migrated loses the whole file. Proved for files without such items
* **C185** Attributes left out have their default meaning in the library's migration: refuted for every question without cardinality and every area without shape
* **C186** Every well-formed document is read: refuted: processing instructions that end with two question marks, names outside the basic multilingual plane and documents that begin with a processing instruction whose target begins with xml are refused. Proved for every other document
* **C187** What is not well-formed is not read: refuted: control characters and texts that end inside a comment or a processing instruction are accepted. Proved for texts of legal characters without comments and processing instructions
* **C188** Reading a document ends: refuted: the parser never ends on data with ]]>. Proved for every text, well-formed or not, in which ]]> does not occur
* **C189** What is written can be read back: refuted: tabs and line feeds in attribute values become spaces, an empty value becomes a space, characters XML does not allow are written. Proved for names of the basic multilingual plane, legal characters and attribute values without tabs and line feeds, up to the white space of C190
* **C192** CDATA sections that are written can be read: refuted: what is written is always refused
* **C193** The value of an element is the value set: refuted: child elements cannot be left out. The rest is proved
* **C194** The SQL condition of a filter is read as the filter: refuted: brackets to the right of an operator of the same precedence are lost, 5 sub (3 sub 1) becomes 5 - 3 - 1. Proved for filters in which no such operand occurs, no comparison is compared and the text of concat is not calculated with
* **C195** The SQL store returns the entities the filter is true of: refuted: nulls, % and _ in the text to be found, indexof and lost brackets. Proved for comparisons of Int32, Int64 and String properties and literals and tests for texts without wildcards, joined by and and or, if the properties are not null
* **C196** Comparisons with null find entities: refuted: such a comparison selects no row whatever is stored
* **C203** A thread that waits for a connection is woken up when one is free: refuted: the notification is lost if the notified thread cannot open a connection, or (module that must not be shared) runs out of time. Proved for schedules in which connections can be opened and, with such a module, nobody runs out of time
* **C204** A connection that cannot be opened does not hinder other threads: refuted: with a module that must not be shared no other thread ever gets a connection again, as the lock of the module is kept
* **C206** No connection is closed while a thread uses it: refuted: close does so if the module must not be shared. Proved for every schedule without close
* **C207** close closes every connection and ends the use of the container: refuted: a release during close is not noticed, so the connection stays open; a thread that ended without a release makes close loop for ever; a thread that waits opens a connection afterwards. Proved if nobody has a connection or waits when close is called
* **C211** Entities without a value in the order column are read page by page too: refuted: a null at the end of a page raises an exception instead of giving a link, and after the first page no row with a null in the first order column is ever selected, so that it is lost where nulls come last. C210 holds without nulls
* **C212** Long order values do not stop paging: refuted: a first page that ends with values of more than 512 characters raises an exception, list(None). C210 holds for at most 512 characters
* **C214** $top limits what is read by following links: refuted: the link to the next page does not contain $top, so following the links reads everything; if $top equals the limit of the server there is a link too. Proved for $top below the limit, and for each page
* **C216** An insertion with bindings by key is all or nothing: refuted: looking up an entity by its key is a method with a transaction of its own on the same connection, whose commit commits the unfinished insertion. Proved (C215) for objects and for keys where the entity has the foreign key
* **C218** An update with keys or new entities in link tables is all or nothing: refuted: keys, and new entities with an auxiliary table (which are inserted without the transaction), commit the unfinished update. Proved (C217) for all other bindings
* **C220** A deletion with dependent entities is all or nothing: refuted: reading the dependent entities commits what has been removed so far. Proved (C219) without dependent entities
* **C227** A database without roll back is supported: refuted: the handler for a database that cannot roll back names a variable that does not exist, so that every failure ends with NameError
* **C228** A failed insertion can be tried again: refuted: the object is marked as existing before the commit and keeps the mark, so that it is refused with EntityExists
* **C229** At most one link where the model says so: refuted: a foreign key that should be unique (one to at most one) is created without that constraint. Proved: no second link where the entity has the foreign key
* **C230** Removing a link that is not there raises KeyError: refuted: with a foreign key making the message fails with TypeError. Proved for auxiliary tables
* **C231** An update can bind a new entity through a foreign key: refuted for every such update: the transaction is passed in the place of the list of foreign keys, so that none succeeds
* **C235** What is read does not depend on how the bytes arrive: refuted: with a negative chunk size the data of the chunk before are taken again if they came in the same piece, otherwise UnboundLocalError. Proved for well-formed responses
* **C236** What is no response is an HTTP error: refuted: NameError, ValueError, TypeError, UnboundLocalError, no end at all, or no error
* **C237** Every response of the protocol is read: refuted: brackets and trailing spaces in reasons, Transfer-Encoding: identity, repeated lengths, 2^63 bytes. Proved for the responses of C232
* **C239** A text sent in chunks is well-formed chunks: refuted: the empty text is sent with two ends. Proved for all others
* **C241** A header value cannot add other headers: refuted: a value with a line end adds a header. Proved for values within a line
* **C246** One HTTP connection for each thread and target, and no more than allowed: refuted: _DeactivateConnection looks for the thread and target but not for the connection, so that a connection killed at work replaces the new one of its thread. Proved for schedules in which ActiveCleanup kills only connections of threads that are not in ThreadTask
* **C247** No thread sleeps while an HTTP connection could be had: refuted: after the fault of C246 ActiveCleanup raises KeyError before it notifies. Proved for schedules in which ActiveCleanup kills only connections of threads that are not in ThreadTask; that a notified thread gets a free place is proved for all
* **C248** A closed HTTP request manager makes no connections: refuted: a thread that waits does not look at closing when it goes on. Proved for managers in which no thread waits
* **C249** Cleaning up spares HTTP connections that were in use lately: refuted: lastActive of a connection that has just been made or taken is 0 or old. Proved: what is killed or closed has a lastActive beyond the limit, and after harmless cleanups all of them are
* **C252** An HTTP request is sent once: refuted: _StartRequest is called even if the request stays in the queue, so that a POST is sent again and again, the later ones without the body, while an answer is awaited. Proved for requests that are queued at rest or can be repeated
* **C254** A killed HTTP connection is never opened again: refuted: Kill does nothing if there is no socket yet. Proved if there is one
* **C255** Every HTTP request hears once that it is over: refuted: not called if the head of an informational response is cut off or if the request cannot be started, and called twice after 100 Continue. Proved: called at least once for every request that was started, by the end of its socket, if no status is 0 and no informational response is cut off
* **C256** HTTP responses that have arrived are passed on: refuted: the answer to a second request that arrives with the first one is not looked at until more bytes come, and lost if the server hangs up. What is passed on is right by C251
* **C257** HTTP responses that are cut off are not taken for whole ones: refuted: a response that is cut off has its status and no error, and some of its chunks as the body. What is said to be whole is whole by C251
* **C258** HTTP basic credentials are read from what is written: refuted: a colon in the user or the password raises NameError on reading. Proved for all others
* **C260** HTTP credentials are sent only to the server they were given for: refuted: the header is kept when a redirect leads to another server, without encryption too. Proved for requests to the server that all earlier ones of the exchange were sent to
* **C262** HTTP credentials are volunteered only at or below paths where they have worked: refuted for paths with empty segments. Proved: what has to be so for a request to be sent with credentials at once, that paths are learned only from requests that were answered, and, for paths without empty segments, that good paths are those at or below them
* **C263** HTTP redirects come to an end: refuted: a redirect to the same URL is followed without end
* **C264** HTTP requests that change something are not sent again without asking: refuted: POST is sent again with its body after 301, 303 and 307. Proved: method and body never change, and after 302 only GET and HEAD are sent again
* **C265** HTTP responses are handled without exceptions: refuted: seven kinds of responses that raise. Proved for responses with other statuses than 3xx and 401
* **C266** HTTP challenges are read from what is written: refuted: no header is read as more than one challenge, FromString cannot read two parameters and schemes other than Basic are lost. Proved for one basic challenge, whatever its parameters, read with ListFromString
* **C275** An update repeated after a conflict does not overwrite what the client has not seen: refuted: the failed update has advanced the token of the entity, and its repetition is accepted; proved without repetitions
* **C276** Tokens tell apart an entity and another that took its key: refuted: a counting token starts again at 1; proved if no key is used again
* **C277** Clients that select the tokens are safe from clients that do not: refuted: an update without the token does not advance it; proved if everybody selects it
* **C279** An entity that was just read can be updated, whatever its token: refuted: a NULL token always conflicts, and the largest integer cannot be advanced; proved for all others
* **C280** Tokens may be times and GUIDs: refuted: with such a token no entity is ever inserted or updated (NameError)
* **C281** With a token that is a hash nobody overwrites what they have not seen: refuted for every hash function: values are hashed without separators; proved is that updates succeed only if the stored tokens are those of the entity
* **C282** The store in memory keeps clients from overwriting what they have not seen: refuted: the store in memory does not look at tokens
* **C286** Empty entities are read: refuted: an entity without text is opened and never closed; the second reference to it is taken for recursion
* **C287** Recursive entities are rejected: refuted: an entity is closed when its last character has been read, and a reference at its end is looked up after that; two entities that consist of a reference to the other are read for ever. Proved if no text ends with a reference
* **C289** The text read is bounded by what was written: refuted: k+1 entities of two tokens give 2^(k+1) characters
* **C292** DateTime values survive JSON: refuted: the last second of a minute before 1970 with a fraction is written and refused, leap seconds are written as the second before. Proved is that proper points in time are read back exactly if they are not in such a second
* **C293** DateTimeOffset values survive JSON: refuted: every writing and every reading fails
* **C294** Ticks are read as the time they stand for: refuted: the day before the first of the calendar is read as the first. Proved for all other ticks
* **C296** JSON values of the wrong kind are refused: refuted: strings take any JSON value and hold it, integers take numbers with a fraction and cut them, Booleans take numbers
* **C298** Complex properties may be left out: refuted for every complex property: leaving it out is an AttributeError, null a TypeError
* **C299** Links of new entities survive JSON: refuted for properties with one target: the link is written as a list and read as a new entity without values. Proved for properties with many targets
* **C301** Bodies without the property or the entity are refused: refuted: what the server answers for a property can be sent back without being stored; any object without the names of an entity's simple properties clears them all
* **C303** Copies of entities have their values: refuted: setting an entity or a complex value from another one never changes anything, as values are set from themselves; with two properties outside the key an entity cannot be copied at all, as the variable with the source is overwritten
* **C306** No answer has more entities than the server allows: refuted for JSON: every collection is sent as a whole. Proved for XML
* **C307** Links are paged: refuted for XML: all links are sent, without a count. Proved for JSON
* **C312** A default namespace can be removed: refuted: the element gets the empty text as its namespace, and elements inside it get the namespace that was removed
* **C313** Documents without meaning under the recommendation are not accepted: refuted: every undeclared prefix gives an element without namespace, and of two attributes with one name one is lost
* **C314** Attributes are only removed if they are declarations: refuted: every attribute whose name begins with xmlns is removed
* **C315** Attributes and elements keep their namespaces when written: refuted: attributes in the default namespace are written without prefix, and elements without namespace are captured by the default namespace. Proved when all elements have namespaces and attributes have others
* **C316** Documents that were read can be written: refuted: ValueError if the prefix that is remembered is declared again on an element that also declares a default namespace. Proved for documents where no tag declares two prefixes for one namespace
* **C320** A nonce that was checked in the last 90 minutes is reported: refuted: checks that were reported do not count, and a clock that is set back lets a nonce be accepted twice at once. What is true is C318
* **C321** Keys have at least the number of bits that is asked for: refuted for every length that is not a multiple of 16 or one less; up to 14 bits keys are empty
* **C324** A generated key never replaces a consumer: refuted: there is no check of generated keys
* **C326** All consumers that can be added are loaded again: refuted for keys with spaces and keys that begin with #
* **C327** Loading a file that fails changes nothing: refuted: consumers before the line that fails stay added
* **C329** Strings of an ABNF rule are not refused: refuted: the handler names a class that does not exist, so the first alternative that fails ends the search; proved for the program with the right name
* **C333** Alternatives can be added to a name: refuted for names with letters in upper case and for rules that were defined before; proved for names in lower case
* **C334** Rules may be defined in any order: refuted: the undefined rule is copied
* **C335** Data that do not match a rule are reported as invalid: refuted for all data: the error is always a NameError
* **C336** Data accepted for a rule are a string of it as a whole: refuted: the end of the data is not checked
* **C337** Validation of data ends: refuted for repetitions of what may be empty
* **C340** Texts of grammars can be read: refuted for every text with a rule: the loops wait for RFC2234Error, which RFCSyntaxError is not, so they end only at the end of the text, where the end of the line is missing
* **C344** Dictionaries of values have all values that were read: refuted for all strings: the test is after the loop, so only the last value is kept, and an empty string is an UnboundLocalError
* **C347** Strings that are no titles are a ValueError: refuted: white space is an IndexError
* **C348** Only values of the enumeration are written: refuted: every other number is written as the default
* **C354** All lines can be read: refuted for all bodies: the iterator asks for lines for ever; readlines ends only by a hint that is less than what is left
* **C355** Blocks are no longer than asked for: refuted for all sizes less than the default: maxSize is not used. Proved: the blocks make up the rest of the body
* **C356** Seeking forward skips that many bytes: refuted beyond the buffer: skipped bytes are counted twice. Proved within the buffer
* **C357** Seeking behind the end is harmless: refuted: after skipped bytes were counted twice a negative size reads the stream to its end
* **C358** Entries that are reset are like new: refuted exactly for entries with a content: an AttributeError (a method that does not exist). Proved for entries without one
* **C359** Feeds that are reset are empty: refuted for all feeds: entries stay, and so does the date, which is detached; what stays is stated exactly
* **C361** Values of contents of text can be read: refuted for all contents: the value is not returned
* **C365** Unhooking twice is harmless: refuted for all histories that end without users: the hooks of the next user are not set
* **C366** Hooks can be used by several threads: refuted by a schedule in which an update of the count is lost; proved for one thread
* **C368** Encodings of texts with marks are detected: refuted for all texts that start with a character of Latin-1: no encoding is found
* **C370** Spaces before XML and JSON do not matter: refuted for all bodies that start with a space; proved for other white space (C369)
* **C371** Line feeds before XML do not matter: refuted for as many controls as the buffer has bytes; proved for fewer (C369)
* **C374** XML files in UTF-8 with a mark can be opened: refuted for all such files: a name that is not defined, NameError
* **C375** XML files in EBCDIC are recognised: refuted for all such files: the key of the table is written with an octal escape
* **C378** Positions in lines of XML entities do not depend on the kind of end of line: proved for texts without carriage returns; refuted for all texts: behind a carriage return with a line feed the first character is at position 2

## Defects seen while reading that are not theorems of their own

* At the pinned commit `imsqtiv1.py` calls `ValidateIdentifier` on `pyslet.imsqtiv2p1`, which does not export it.
  The model uses the function of `pyslet.qtiv2.core`.
* `core.GetTemplateRef` calls `xsi.IsValidNCName`, which does not exist (this is C70).
* `DeclareFeedback` ignores a clash with a variable that is already called `FEEDBACK`; C73 assumes there is none.
* A malformed `maxvalue` is read as 1 and a malformed `minvalue` as 0 (`ReadFloat` defaults), and `str(float)`
  keeps 12 digits; C15 assumes that the text written for a limit denotes it.

## What is modelled

| module | code |
|----|----|
| `Model/Py` | the Python built-ins used: `split`, `join`, `replace`, `lower`, `find`, `strip`, `int`, `hex`, `posixpath` |
| `Model/XmlUtils` | `QTIMigration/lib/xmlutils.py`: escaping, comments, the tokenizer |
| `Model/Search`, `Model/ContentPackage` | `QTIMigration/lib/imscp.py`: identifiers, resources, files, dumping |
| `Model/RespProc`, `Model/V1Resp` | `QTIMigration/lib/imsqtiv1.py`: response conditions, tests, `setvar`, feedback, limits; how `imsqti.py` writes them |
| `Model/ItemVars`, `Model/Names`, `Model/Html`, `Model/SaxDriver` | `QTIMigration/lib/imsqtiv1.py`, `imsqti.py`: variables, identifiers, views, flow and embedded HTML, the class stack |
| `Model/ItemXml` | `QTIMigration/lib/imsqti.py`: every `WriteXML`; the item file of `imsqtiv1.py` |
| `Model/ManifestXml` | `QTIMigration/lib/lom.py`, `imsqti.py`: `QTIMetadata`; `imscp.py`: `WriteManifestXML` |
| `Model/ItemMeta` | `QTIMigration/lib/imsqtiv1.py`: `QMD…` classes, metadata fields, objectives, metadata methods of `QTIItem` |
| `Model/TestForm` | `pyslet/qtiv2/tests.py`: `TestForm` (selection, ordering, lookup), `RegisterPart`/`GetPart` |
| `Model/TestSession` | `pyslet/qtiv2/variables.py`: `TestSessionState` (requests, keys, next question, branching, durations, namespaces); `pyslet/qtiv2/tests.py`: `CheckPreConditions`, `GetBranchTarget`; items and expressions are arbitrary functions; HTML is not modelled |
| `Model/Shapes` | `ConvertAreaCoords`; shapes of `pyslet/qtiv2/core.py` |
| `Model/WinChars`, `Model/Shell` | `QTIMigration/fixwinchars.py`; `qtish.py`, warnings |
| `Model/Rtf` | `QTIMigration/lib/rtfutils.py` |
| `Model/CharClass` | `pyslet/unicode5.py`: `CharClass` |
| `Model/Calendar` | `pyslet/iso8601.py`; zones of `QTIMigration/lib/iso8601.py` |
| `Model/Uri` | `pyslet/rfc2396.py` |
| `Model/Presentation` | `imsqtiv1.py`: material, flows, responses, renderings, labels, rubrics, objectives, feedback (1373-3127); `imsqti.py`: `ExtractText`, `ExtractImages` |
| `Model/CpFiles` | `pyslet/imscpv1p2.py`: expansion, export, unique files, adding and deleting files |
| `Model/XsdText` | `pyslet/xsdatatypes20041028.py`: integers, decimals, doubles, booleans |
| `Model/QtiValue`, `Model/QtiExpr`, `Model/QtiRun` | `pyslet/qtiv2/variables.py`, `expressions.py`, `processing.py` |
| `Model/CommandLine` | `QTIMigration/migrate.py`: arguments and batch run; `imsqtiv1.py`: `QTIParserV1` (construction, `ProcessFiles`, `Parse`, `DumpCP`), `QuesTestInterop`, `QTIComment`; the experimental conversion (`-x`) is not followed |
| `Model/HttpWords` | `pyslet/rfc2616_core.py`: `OctetParser`, `WordParser`, quoting |
| `Model/HttpValues` | `pyslet/rfc2616_params.py` and `rfc2616_headers.py`: media types, products, versions, language and entity tags, qualities, Accept headers, byte ranges; `odata2/server.py`: `ContentNegotiation`.  The rounding of qualities with more than three digits is a parameter |
| `Model/HttpDate` | `pyslet/rfc2616_params.py`: `FullDate`, `RequireFullDate` |
| `Model/ODataLit` | `pyslet/odata2/core.py`: `ParseURILiteral`, identifiers, `LiteralExpression.__unicode__`; `csdl.py`: numeric, date, time, binary literals; `unicode5.py`: `BasicParser` |
| `Model/ODataEval` | `pyslet/odata2/core.py`: `PromoteTypes`, `CanCastMethodArgument`, `Evaluate` of all expressions, all operators and methods; `csdl.py`: `SimpleCast`, setting numbers; `iso8601.py`: `TimePoint.__cmp__` |
| `Model/ODataOptions` | `pyslet/odata2/core.py`: `ParseExpandOption`, `ParseSelectOption`, `ParseOrderbyOption`, `OrderByFromString`, `OrderByToString`, `FormatExpand`, `FormatSelect` |
| `Model/ODataUri` | `pyslet/odata2/core.py`: `ODataURI` (paths, keys, queries, validation, `GetParamValue`, `FormatKeyDict`, `FormatSysQueryOptions`), `SystemQueryOption`, `PathOption`, `InlineCount`; UTF-8.  Surrogates and messages of errors that cannot be encoded are left out |
| `Model/ODataJson` | `pyslet/odata2/core.py`: writing and reading of values, complex values, entities, links of new entities and single properties in JSON; `csdl.py`: `SetFromValue` and `SetFromLiteral` as far as JSON uses them; `iso8601.py`: `Time.Offset` of thousandths.  Python's `json`, base64 and the literals of six types are parameters; floating point numbers are exact |
| `Model/ODataCopy` | `pyslet/odata2/csdl.py`: `SetNull`, `SetFromComplex`, `SetFromEntity`, `CopyEntity`; conversion between types is a parameter |
| `Model/ODataFeeds` | `pyslet/odata2/client.py`: `iterpage`; `core.py`: collections and links in JSON; `server.py`: which entities and links are sent |
| `Model/XmlNames` | `pyslet/xmlnames20091208.py`: names, prefixes and declarations of namespaces, written and read. Not modelled: `DefaultNS`, `sgmlOmittag`, the order of attributes |
| `Model/Blti` | `pyslet/imsbltiv1p0.py`: nonces, generated keys, consumers and their files. Not modelled: `Launch`, which is the `oauth` library; keys made without `os.urandom` |
| `Model/Abnf` | `pyslet/rfc2234.py` `RFC2234ABNFRuleBase`: rules, definitions, `ValidateData` and `GenerateData`. Not modelled: `PrintRule`, texts of errors; in the order of parsers the names of rules are not compared (theorems hold for every order) |
| `Model/Rfc2234` | `pyslet/rfc2234.py` `RFC2234Parser`: characters, lines, saved states, of strings and files. Not modelled: lists of errors, parsers with a parent |
| `Model/AbnfText` | `pyslet/rfc2234.py` `RFC2234ABNFParser`: `ParseRulelist` to `ParseRepetition`. `ParseElement` is an argument of the model |
| `Model/Enumeration` | `pyslet/xsdatatypes20041028.py`: `Enumeration`, `MakeEnumeration`, aliases. Cases of ASCII only; attributes set on classes are not modelled |
| `Model/InputWrapper` | `pyslet/rfc5023.py`: `InputWrapper` over streams that give data in any pieces. Not modelled: `close`, negative sizes other than −1, content lengths that are no numbers |
| `Model/Atom` | `pyslet/rfc4287.py`: children and `Reset` of entries and feeds, types of contents. Not modelled: XHTML in texts, dates, attributes of elements |
| `Model/Vfs` | `pyslet/vfs.py`: paths of POSIX systems (`posixpath.join` and `split` are modelled), `ZipHooks` with interleavings. Not modelled: the operating system, encodings of paths |
| `Model/Sniff` | `pyslet/unicode5.py`: `DetectEncoding`; `pyslet/odata2/server.py`: how `ReadXMLOrJSON` recognises bodies in UTF-8 without a content type. Not modelled: decoders of other encodings, matching of media types, the parsers |
| `Model/AutoDetect` | `pyslet/xml20081126/structures.py`: `XMLEntity.AutoDetectEncoding`. Decoders are not modelled |
| `Model/XmlLines` | `pyslet/xml20081126/structures.py`: `XMLEntity.NextChar`, `NextLine`, `Reset`, `GetPositionStr`. The source gives characters in pieces of any size; decoders are not modelled |
| `Model/ODataServer` | `pyslet/odata2/server.py`: `Server.__call__`, `HandleRequest`, `GetResource`, `ODataError`, `ContentNegotiation`, `CheckCapabilityNegotiation`, `ReadOnlyServer`; `csdl.py`: `GetKey`, `GetEntity`; `core.py`: the versions.  The store is any `Provider`; the reading of bodies and the writing of documents are operations of the provider |
| `Model/PyMigrate` | `pyslet/qtiv1/core.py`: `MigrateV2Cardinality`, `MigrateV2VarType`, `MigrateV2View`, `MigrateV2AreaCoords`; `common.py`: `DecVar`, `InterpretVar`, `SetVar`, `DisplayFeedback`, `ConditionVar` and the tests; `item.py`: declarations of `ResponseThing`, `ResProcessing`, `RespCondition`, `ItemFeedback` identifiers; the loop over a file in `imsqtiv1p2p1.py` |
| `Model/PyXml` | `pyslet/xml20081126/parser.py`, `structures.py`: reading and writing of documents without a document type declaration, from and to unicode strings |
| `Model/XmlEntities` | `pyslet/xml20081126/parser.py`: `NextChar`, `PushEntity`, `ParseEntityRef`; `structures.py`: `Open`, `IsOpen`, `Close`.  Internal general entities with characters and references, without markup; the document is standalone |
| `Model/SqlExpr` | `pyslet/odata2/sqlds.py`: the conversion of filters to SQL conditions with parameters, for the general classes and for SQLite |
| `Model/SqlPool` | `pyslet/odata2/sqlds.py`: the pool of connections (`AcquireConnection`, `ReleaseConnection`, `close` of the container) under every schedule of threads; what is done between two waits is one step, as the lock of the pool is held |
| `Model/SqlPage` | `pyslet/odata2/sqlds.py`: paging of collections (`SetPage`, `NextSkipToken`, `pageGenerator`, `WhereSkiptokenClause`), the link of `odata2/core.py` `GetNextPageLocation` and what `odata2/server.py` passes of a request; a row is an identity with the values of its order columns, the condition of a token is a tree and not text, and what the database answers to it is in `Spec/SqlPage` |
| `Model/SqlStore` | `pyslet/odata2/sqlds.py`: `SQLTransaction`, `InsertEntity`, `UpdateEntity`, `DeleteEntity`, `UpdateLink`, `DeleteLink`, `ClearLinks`, `ReplaceLink` of all collections, `BindNavigationProperty`, the constraints of `CreateTableQuery`; one connection with what is committed and what it sees, statements and commits that may fail at any time; keys and data are numbers, concurrency tokens are modelled in `Model/Tokens`, the text of the statements is not, and the depth of cascades is bounded by a parameter |
| `Model/Tokens` | `pyslet/odata2/csdl.py`: `SetConcurrencyTokens`, `GenerateConcurrencyHash`, `Selected`, `Expand` (selection only); `sqlds.py`: `FieldGenerator`, and `UpdateEntity`, `InsertEntitySQL`, `__getitem__`, `__delitem__` without bindings; `memds.py`: `UpdateEntity`, `AddEntity`; simple properties only, SHA-256 is an arbitrary function |
| `Model/HttpMessage` | `pyslet/rfc2616.py`: the headers of messages, `CalculateTransferLength`, `HTTPResponse` (reading), `HTTPRequest.ReadRequestHeader` and `ReadRequestBody`, the loop of `Connection._RecvResponseData`; a received piece is given, a stream is the list of what its reads return |
| `Model/HttpPool` | `pyslet/rfc2616.py`: `HTTPRequestManager`: the connections of all threads (`QueueRequest`, `_ActivateConnection`, `_DeactivateConnection`, `ThreadTask`, `IdleCleanup`, `ActiveCleanup`, `Close`) under every schedule; what is done between two waits is one step, as the lock of the manager is held; what a connection does while it is processed is left open |
| `Model/HttpConnection` | `pyslet/rfc2616.py`: `Connection` (`ConnectionTask`, `_StartRequest`, `_SendRequestData`, `_RecvResponseData`, `RequestDisconnect`, `Continue`, `Close`, `Kill`, `NewSocket`) and what `HTTPRequest` and `HTTPResponse` do with it (`Disconnect`, `ResponseFinished`, `ServerDisconnect`), over every history of queued requests, rounds, closes and kills; the head of a request (`ExtractRequestLine` to `Connect`) is given with the request, as in `Model/HttpMessage`; `select`, `send`, `recv` and the clock are the environment of a round; authentication, redirects and what `Finished` of a request does are left out |
| `Model/HttpAuth` | `pyslet/rfc2617.py` (`Challenge`, `BasicCredentials`, `AuthorizationParser`), `pyslet/rfc2616_params.py` (`HTTPURL`, `HTTPSURL`), `pyslet/rfc2616.py`: `HTTPRequest` (`SetRequestURI`, `Finished`, `Resend`) and `HTTPRequestManager` (`FindCredentials`, `FindCredentialsByURL`), over every sequence of responses, and `base64` |
| `Model/ODataExpr` | `pyslet/odata2/core.py`: operators, methods, expression objects and their text, `ParseCommonExpression`, `ParseMethodCallExpression`, `ParseCastLike` |
| `Model/Paging` | `pyslet/odata2`: paging, skip tokens, ordering, next links (csdl.py 2550-2830, core.py 2383-2401, client.py 199-237, server.py 494-496, 668-690) |
| `Model/MemStore` | `pyslet/odata2/memds.py`: one entity set of the in-memory store (rows, keys, selections, filters, streams); filters and orders are arbitrary functions |
| `Model/MemLinks` | `pyslet/odata2/memds.py`, `csdl.py`: links between entities of all sets of a container: association indexes, navigation collections, bindings, cascading deletion, threads that link; entities are their keys, sets of keys are lists with an arbitrary order of iteration |

## What is not modelled

* XML parsing by expat; of the `pyslet` XML library document type declarations (other than the replacement of internal entities), validation, SGML options, byte
  sources, element classes with their own content models; file
  encodings other than UTF-8, zip compression (archives are lists of entries), the operating system beyond POSIX
  paths without links.
* The graphical interface (but for its use of the output directory), the rest of `odata2` (the SQL store but for changes, the conversion of filters, the pool of connections and paging, Atom), HTML 4.0 schema classes,
  the rest of `pyslet/qtiv1` (content, renderings, metadata, sections), rendering of interactions, manifest metadata of `pyslet`.
* Unicode normalisation, IEEE floating point.

## Axioms of each theorem in the manifest

* no axioms: `plain_order_refuted`, `status_refuted`, `truncated_refuted`, `setvar_unknown_fails`, `py_file_migrated`, `py_file_lost`, `sqlite_precedences`, `standard_precedences`, `ST.tidy_example`, `http_buffer_new`, `headersOK_new`, `zone_sign_ignored`, `Copy.complex_changes_nothing`, `Abnf.pySort_perm`, `Enumeration.enum_errors`, `Atom.atom_content_value_refuted`, `Vfs.hooks_threads_refuted`, `time_offset_midnight_fails`, `shift_zone_fails`, `boolean_round_trip`, `name_of_test`
* `propext`: `notice_exact`, `media_key_refuted`, `py_xml_set_value`, `py_xml_ignore_elements_refuted`, `sql_operators_written`, `PO.closed_only_when_unused_refuted`, `PO.close_after_release_refuted`, `PO.nothing_opened_after_close_refuted`, `SQP.regular_example`, `ST.insert_example`, `ST.insert_atomic_refuted`, `ST.insert_keys_failed`, `ST.insert_keys_crash`, `ST.update_example`, `ST.update_atomic_refuted`, `ST.update_failed`, `ST.update_crash`, `ST.delete_example`, `ST.delete_atomic_refuted`, `ST.delete_failed`, `ST.cascade_example`, `ST.insert_not_raw`, `ST.update_not_raw`, `ST.delete_not_raw`, `ST.retry_refused`, `ST.retry_refuted`, `ST.multiplicity_refuted`, `ST.two_passports`, `ST.deleteLink_missing`, `ST.update_new_own_example`, `mem_firstOccurrences`, `ST.spares_example`, `XE.means_unique`, `Copy.null_at_any_depth`, `Copy.copy_refuted`, `Copy.set_changes_nothing`, `Copy.copy_fails`, `Blti.lookup_put`, `Blti.space_in_key_refuted`, `Blti.comment_key_refuted`, `Blti.load_atomic_refuted`, `Abnf.choice_accepts`, `Abnf.choice_sensible`, `Abnf.choice_reach`, `Abnf.choice_refuses`, `Abnf.choice_generates`, `Abnf.abnf_invalid_refuted`, `Abnf.idle_calls`, `AbnfText.abnf_text_refuted`, `AbnfText.alternation_end`, `AbnfText.rule_fails`, `AbnfText.literal_plain`, `AbnfText.abnf_text_sample`, `Enumeration.enum_dict_refuted`, `Enumeration.enum_title_refuted`, `Atom.atom_entry_reset`, `Atom.atom_entry_reset_refuted`, `Atom.atom_feed_reset_refuted`, `Atom.atom_feed_reset`, `XmlLines.xml_utf8_sample`, `impossible_week_accepted`, `date_offset_day_zero`, `date_offset_wrong`, `julian_day_zero`, `time_point_cmp_midnight`
* `Quot.sound`, `propext`: `item_comment_well_formed`, `path_segment_round_trip`, `path_segment_safe`, `dump_stays_inside_partial`, `extractTexts_seen`, `page_unlimited`, `pages_hypotheses`, `next_page_partial`, `next_page_refuted`, `top_kept_partial`, `page_order`, `page_order_hypotheses`, `next_key_free`, `links_hypotheses`, `no_dangling_hypotheses`, `dangling_refuted`, `multiplicity_hypotheses`, `multiplicity_refuted`, `required_hypotheses`, `required_refuted`, `failed_insert_refuted`, `delete_self_refuted`, `delete_hypotheses`, `delete_fails_refuted`, `delete_silent_refuted`, `link_steps`, `threads_serial_partial`, `threads_refuted`, `response_conditions_meaning`, `exact_hypotheses`, `bound_hypotheses`, `bound_self_refuted`, `elsewhere_refuted`, `quality_read_exact`, `common_type`, `common_type_laws`, `expand_reads`, `expand_only`, `select_reads`, `select_only`, `options_redundant`, `expand_written`, `select_written`, `path_leads_partial`, `key_values_partial`, `key_order`, `py_setVar`, `py_undeclared_outcome_refused`, `area_numbers_partial`, `py_response_declared`, `py_naming_never_ends`, `py_single_blanks_lost`, `py_default_cardinality_refuted`, `py_xml_read_unique`, `unsupported_elements_ignored`, `run_unsupported`, `py_xml_ascii`, `py_xml_get_value`, `PO.wakeup_lost_by_failure_refuted`, `PO.wakeup_lost_by_timeout_refuted`, `PO.close_of_dead_thread_never_returns`, `SQP.null_at_end`, `ST.insert_atomic`, `ST.update_atomic`, `ST.delete_atomic`, `ST.insertLink_atomic`, `ST.replaceLink_atomic`, `ST.deleteLink_atomic`, `ST.clearLinks_atomic`, `ST.insert_stores`, `ST.insert_new`, `ST.insert_taken`, `ST.update_stores`, `ST.delete_removes`, `ST.no_rollback`, `ST.deleteLink_refuted`, `ST.update_new_own_fails`, `http_text_chunks_partial`, `setHeader_ok`, `warnings_once`, `firstOccurrences_nodup`, `http_success_paths`, `http_volunteered_partial`, `http_challenge_lookup`, `ST.delete_spares`, `zone_round_trip_partial`, `XE.text_is_meant`, `XE.acyclic_is_read`, `XE.empty_read_refuted`, `XE.cycles_rejected_refuted`, `XE.looping_for_ever`, `XE.growth_bounded_refuted`, `JS.leap_second_refuted`, `pages_are_windows`, `paging_forward_shows_all`, `paging_stops_at_ends`, `Feeds.client_pages`, `Feeds.client_pages_sample`, `Feeds.json_complete`, `Feeds.json_count`, `Feeds.atom_limit`, `Feeds.json_limit_refuted`, `Feeds.links_xml_refuted`, `Blti.nonce_reported`, `Blti.nonce_once`, `Blti.nonces_kept`, `subtract_from_self_leaves_members`, `Blti.checked_again_refuted`, `Blti.clock_back_refuted`, `Blti.load_save`, `Abnf.abnf_refused_refuted`, `Abnf.abnf_forward_refuted`, `Rfc2234.rfc2234_file_is_string`, `Rfc2234.rfc2234_reads`, `Rfc2234.rfc2234_rewind`, `copy_not_independent`, `Enumeration.enum_round_trip`, `Enumeration.enum_lower`, `Enumeration.enum_list_round_trip`, `Enumeration.enum_dict_order`, `Enumeration.enum_default_refuted`, `uri_escape_unescape`, `uri_escape_hides`, `InputWrapper.input_blocks_refuted`, `Vfs.path_kinds`, `Vfs.hooks_alone`, `Sniff.detect_plain`, `Sniff.detect_mark_refuted`, `path_normal_segments`, `path_normal_same_place`, `path_normal_no_dot`, `path_normal_dotdot`, `path_normal_idempotent`, `XmlLines.xml_position_refuted`, `XmlLines.xml_position_partial`, `unique_file_inside`, `unique_file_refuses`, `unique_file_fresh_partial`, `file_protected_partial`, `polygon_bounds_never_finish`, `shift_zone_succeeds_partial`, `uri_unescape_partial`, `uri_server_partial`, `uri_segment_params`, `delete_fails`, `files_accounted`, `integer_read`, `integer_round_trip`, `form_balanced`
* `Classical.choice`, `Quot.sound`, `propext`: `escaped_text_reads_back`, `escaped_text_before_markup`, `attribute_value_reads_back_iff_partial`, `attribute_value_breaks_out`, `escaped_text_ascii_iff_partial`, `escaped_text_not_ascii`, `decode_malformed_escape_loses_char`, `hrefs_distinct_partial`, `hrefs_collide`, `generated_files_inside`, `dump_escapes`, `resource_ids_unique`, `free_resource_id_kept`, `addAll_succeeds`, `addAll_type_error`, `set_identifier_legal`, `fix_identifier_idempotent`, `fix_identifier_keeps_legal`, `resource_ids_legal_partial`, `generated_id_empty`, `file_names_not_reused`, `existing_file_name_protected`, `file_extension_preserved`, `free_file_name_kept`, `slider_bounds_partial`, `pRegions_shown`, `slider_kept_refuted`, `feedback_kept_partial`, `rubric_kept_partial`, `objectives_kept_partial`, `std_wrapped_all`, `rubric_seen_by`, `feedback_styles`, `feedback_hypotheses`, `feedback_kept_refuted`, `presentation_fails_partial`, `presentation_fails_hypotheses`, `presentation_fails_refuted`, `regions_kept_refuted`, `text_question_kept`, `blanks_collected_partial`, `text_question_hypotheses`, `feedback_displayed`, `feedback_displayed_partial`, `feedback_displayed_hypotheses`, `feedback_displayed_refuted`, `pages_partition`, `client_gets_all`, `top_refuted`, `insert_read_partial`, `update_read`, `select_read`, `store_ok`, `store_hypotheses`, `insert_selected_refuted`, `insert_new_partial`, `insert_new_hypotheses`, `insert_filtered_refuted`, `manifest_not_overwritten_partial`, `manifest_overwritten`, `select_same_partial`, `count_partial`, `select_same_hypotheses`, `select_hides_refuted`, `member_listed`, `nav_member_partial`, `nav_member_refuted`, `streams_partial`, `streams_step`, `streams_hypotheses`, `stream_refuted`, `links_both_ways`, `no_dangling_partial`, `multiplicity_partial`, `required_partial`, `delete_depth`, `delete_exact_partial`, `delete_succeeds`, `failures_partial`, `threads_both_ways`, `threads_links_kept`, `link_exact`, `unlink_exact`, `replace_exact`, `insert_bound_partial`, `update_bound_partial`, `options_partial`, `version_partial`, `options_hypotheses`, `nocomment_refuted`, `experimental_refuted`, `version_refuted`, `output_exact`, `consent_partial`, `consent_hypotheses`, `consent_refuted`, `inputs_partial`, `once_partial`, `inputs_hypotheses`, `twice_refuted`, `broken_partial`, `broken_hypotheses`, `stops_refuted`, `raises_refuted`, `extensions_exact`, `separate_partial`, `separate_hypotheses`, `separate_refuted`, `comment_partial`, `comments_partial`, `comment_hypotheses`, `ends_partial`, `ends_exact`, `endless_refuted`, `ends_hypotheses`, `quote_exact`, `quoted_word_exact`, `value_word_partial`, `empty_value_refuted`, `quote_hypotheses`, `variable_names_distinct`, `no_internal_error`, `redeclaration_refused`, `response_lookup_stable`, `outcome_lookup_stable`, `media_partial`, `media_refuted`, `media_hypotheses`, `quality_exact`, `accept_partial`, `accept_refuted`, `accept_hypotheses`, `select_partial`, `select_refuted`, `order_exact`, `negotiate_partial`, `select_hypotheses`, `token_exact`, `charset_exact`, `encoding_partial`, `encoding_refuted`, `partial_match_exact`, `language_partial`, `language_refuted`, `tokens_read_exact`, `token_hypotheses`, `product_order`, `dotted_exact`, `modifier_before`, `continued_after`, `same_version_refuted`, `product_examples`, `http_version_order`, `version_exact`, `product_exact`, `products_exact`, `language_exact`, `entity_tag_exact`, `content_range_exact`, `version_error_refuted`, `tags_hypotheses`, `keys_partial`, `keys_hypotheses`, `date_exact`, `two_digit_partial`, `date_sound`, `weekday_exact`, `zone_refuted`, `two_digit_refuted`, `date_hypotheses`, `errors_partial`, `date_errors_partial`, `errors_refuted`, `errors_hypotheses`, `literals_read`, `literal_unique`, `literals_whole`, `literals_hypotheses`, `used_variables_declared_partial`, `undeclared_fake_response`, `undeclared_feedback`, `literals_written_partial`, `literals_written_refuted`, `written_hypotheses`, `expressions_read_partial`, `expressions_whole`, `expression_unique`, `expressions_read_refuted`, `expressions_only_refuted`, `expressions_hypotheses`, `expressions_written_partial`, `expressions_written_refuted`, `printed_hypotheses`, `expression_errors_partial`, `expression_errors_refuted`, `errors_witness`, `promotion_keeps`, `common_type_example`, `integers_partial`, `division_partial`, `remainder_range`, `negative_integer`, `integers_refuted`, `division_refuted`, `integers_example`, `ne_is_not_eq`, `eq_symmetric`, `relations_mirrored`, `numbers_compared_partial`, `strings_compared`, `times_compared`, `null_compared_partial`, `compared_refuted`, `compared_example`, `truth_tables`, `truth_null`, `truth_error`, `truth_example`, `parts_found`, `text_measured`, `text_replaced`, `text_cut`, `text_trimmed`, `dates_taken_apart`, `text_null`, `text_example`, `round_decimal`, `round_float`, `round_integer`, `nearest_unique`, `round_example`, `limits_enforced_partial`, `zero_minimum_ignored`, `fractional_minimum_weakened`, `text_limit_fails`, `evaluation_errors_partial`, `evaluation_errors_refuted`, `evaluation_errors_example`, `value_depends`, `value_constant`, `depends_example`, `expand_example`, `select_example`, `options_canonical`, `written_example`, `order_reads_partial`, `order_written_partial`, `order_errors`, `order_example`, `order_only_refuted`, `path_reads_partial`, `path_root`, `path_refused`, `path_example`, `path_rule_refuted`, `uri_below`, `uri_elsewhere`, `uri_whole`, `uri_example`, `uri_prefix_refuted`, `segment_name`, `segment_empty`, `segment_single_partial`, `segment_keys_partial`, `segment_example`, `segment_hypotheses`, `segment_keys_refuted`, `key_written_partial`, `key_written_example`, `key_written_refuted`, `query_reads`, `query_written`, `numbers_read`, `inlinecount_read`, `inlinecount_example`, `text_read`, `text_overlong`, `query_example`, `setvar_float`, `setvar_integer_partial`, `setvar_integer_divide_fails`, `setvar_integer_overflow`, `setvar_set_text`, `setvar_space_fails`, `options_allowed`, `options_refused`, `options_example`, `uri_errors_partial`, `option_errors`, `uri_errors_refuted`, `param_reads_partial`, `param_missing`, `param_example`, `param_refuted`, `path_status`, `path_leads_example`, `path_keys_refuted`, `key_example`, `key_names_refuted`, `options_resource`, `options_resource_example`, `get_safe_partial`, `read_only_partial`, `safe_example`, `safe_refuted`, `atomic_partial`, `atomic_example`, `atomic_refuted`, `dollar_count_partial`, `dollar_count_example`, `dollar_count_refuted`, `methods_partial`, `methods_example`, `methods_refuted`, `condition_meaning_partial`, `negated_test_unanswered`, `varsubstring_reversed`, `varsubset_list_lost`, `text_inequality_fails`, `answered_partial`, `answered_example`, `answered_refuted`, `client_partial`, `client_example`, `client_refuted`, `null_value`, `no_entity`, `null_example`, `get_type_partial`, `default_type`, `format_first`, `type_example`, `service_version_partial`, `service_version_example`, `service_version_refuted`, `py_conditions_in_order`, `py_conditions_built`, `py_converted`, `py_condition_meaning_partial`, `py_condition_meaning_refuted`, `py_unsupported_refused`, `py_inequality_refused`, `py_setvar_float`, `py_setvar_integer_partial`, `py_item_scores_partial`, `py_limits_refuted`, `py_feedback_shown_partial`, `py_feedback_outcome`, `py_feedback_identifier`, `py_feedback_shown_refuted`, `area_leading_separator`, `rectangle_region_partial`, `rectangle_loses_pixels`, `ellipse_region_partial`, `tiny_ellipse_covers_everything`, `py_outcome_declared_partial`, `py_outcomes_declared`, `py_boolean_outcome_refuted`, `py_name_collision_fails`, `py_interpretation_joined`, `py_interpretation_undeclared`, `py_area_numbers_partial`, `py_area_numbers_refuted`, `py_rectangle_region_partial`, `py_rectangle_region_refuted`, `py_ellipse_region_partial`, `py_ellipse_incomplete_fails`, `py_bounded_kept`, `py_view_kept`, `py_view_role`, `py_view_case`, `py_blanks_declared_partial`, `py_answers_united`, `py_answers_first`, `py_ordered_blanks_fail`, `py_default_area_refuted`, `py_xml_reads_partial`, `py_xml_reads_refuted`, `py_xml_sound_partial`, `py_xml_sound_refuted`, `py_xml_ends_partial`, `py_xml_hangs`, `py_xml_round_trip`, `py_xml_attributes_refuted`, `py_xml_empty_value_refuted`, `py_xml_control_refuted`, `py_xml_preserve`, `py_xml_words`, `py_xml_cdsect_refused`, `sql_reads_partial`, `sql_functions_written`, `sql_reads_refuted`, `sql_filter_partial`, `selects_not_left`, `sql_filter_example`, `sql_null_refuted`, `sql_wildcard_refuted`, `sql_indexof_refuted`, `sql_null_never`, `sql_text_safe`, `sql_text_example`, `sql_foreign_refused`, `PO.connection_has_one_user`, `PO.releases_at_most_gots`, `flow_content_kept`, `flow_structure_partial`, `empty_flow_makes_paragraph`, `PO.thread_has_one_connection`, `PO.nested_acquire_gets_the_same`, `PO.holder_can_release`, `PO.open_connections_bounded`, `PO.got_was_opened`, `PO.waiting_thread_is_woken`, `PO.sleeping_only_if_busy`, `PO.failure_blocks_module`, `PO.closed_never_handed_out`, `PO.closed_only_when_unused`, `PO.close_of_idle_container`, `PO.release_of_anothers_fails`, `literal_in_range`, `literal_prefix_in_range`, `expression_literals_in_range`, `range_hypotheses`, `html_events_nested`, `html_text_kept_partial`, `html_text_reordered`, `html_rows_reordered`, `html_list_text_fails`, `SQP.reading_complete`, `SQP.reading_true`, `SQP.reading_of_unchanged`, `SQP.reading_ends`, `SQP.reading_example`, `SQP.null_only_on_first_page`, `SQP.null_first_refuted`, `SQP.null_last_refuted`, `SQP.long_refuted`, `SQP.page_size_bounded`, `SQP.page_within_top`, `SQP.top_below_limit`, `SQP.top_refuted`, `plain_text_verbatim`, `tokenizer_progress`, `tokenizer_uncaught_error`, `ST.insertLink_occupied`, `rtf_tags_nested`, `rtf_finishes_partial`, `rtf_never_finishes`, `ST.deleteLink_aux`, `http_response_read`, `http_response_waits`, `http_response_example`, `http_open_body`, `http_open_example`, `http_reading_ends`, `http_buffer_bounded`, `http_pieces_refuted`, `http_pieces_partial`, `http_errors_refuted`, `http_misread_refuted`, `http_body_sent`, `http_body_example`, `http_empty_chunks_refuted`, `repair_preserves_text`, `repair_idempotent`, `repair_ascii`, `repair_no_windows_bytes`, `repair_preserves_text_partial`, `repair_breaks_cdata`, `http_request_head`, `http_head_example`, `http_injection_refuted`, `http_no_injection_partial`, `http_pool_bounded`, `http_pool_bounded_hypotheses`, `http_pool_exclusive`, `http_pool_exclusive_hypotheses`, `http_pool_queued`, `http_pool_queued_hypotheses`, `http_pool_economy`, `http_pool_economy_hypotheses`, `http_pool_promise_partial`, `http_pool_promise_hypotheses`, `http_pool_promise_refuted`, `http_pool_wakes_partial`, `http_pool_turn`, `http_pool_wakes_hypotheses`, `http_pool_wakes_refuted`, `http_pool_closed_partial`, `http_pool_closed_hypotheses`, `http_pool_closed_refuted`, `http_pool_cleanup_partial`, `http_pool_cleanup_hypotheses`, `http_pool_cleanup_refuted`, `identifiers_legal`, `identifiers_stable`, `legal_identifier_kept`, `http_requests_in_turn`, `http_requests_in_order`, `http_requests_example`, `http_answers_matched`, `http_answers_example`, `http_requests_once_partial`, `http_requests_once_refuted`, `http_posts_wait_refuted`, `http_body_waits`, `http_body_waits_example`, `http_killed_stays`, `http_killed_example`, `http_killed_early_refuted`, `http_requests_finished`, `http_requests_finished_example`, `http_requests_finished_refuted`, `http_bad_requests_finished_refuted`, `http_finished_once_refuted`, `http_answers_passed_refuted`, `http_truncated_refuted`, `http_truncated_chunks_refuted`, `http_credentials_partial`, `http_credentials_refuted`, `http_credentials_hypotheses`, `http_space_one_server`, `http_space_hypotheses`, `http_credentials_owner_partial`, `http_credentials_owner_refuted`, `http_credentials_owner_hypotheses`, `http_success_hypotheses`, `http_volunteered_sent`, `http_volunteered_learned`, `http_volunteered_refuted`, `http_volunteered_hypotheses`, `http_redirects_end_refuted`, `http_redirect_methods_partial`, `http_redirect_methods_refuted`, `http_redirect_methods_hypotheses`, `http_answers_handled_partial`, `http_answers_handled_refuted`, `http_challenge_partial`, `http_challenge_lists_refuted`, `http_challenge_refuted`, `http_challenge_hypotheses`, `http_challenge_realm`, `http_challenge_lookup_hypotheses`, `http_host_header`, `http_host_hypotheses`, `http_resent_once`, `http_resent_hypotheses`, `date_absolute_round_trip`, `absolute_date_round_trip`, `tomorrow_absolute`, `tomorrow_valid`, `before_iff_absolute`, `cmp_correct`, `legal_iff`, `http_challenge_answered`, `http_challenge_answered_hypotheses`, `http_redirect_followed`, `http_redirect_unwanted`, `http_redirect_followed_hypotheses`, `http_credentials_remembered`, `http_credentials_remembered_hypotheses`, `TK.counting_token_no_lost_update`, `TK.tokens_example`, `TK.tokens_example_fair`, `TK.repeated_update_refuted`, `TK.used_again_refuted`, `TK.partial_selection_refuted`, `TK.up_to_date_updates`, `TK.tokens_example_live`, `TK.null_token_refuted`, `TK.last_token_refuted`, `zone_sign_dropped`, `TK.time_and_guid_tokens_refuted`, `TK.hash_token_refuted`, `TK.update_changes`, `TK.memory_store_refuted`, `TK.failed_update_keeps`, `XE.cycles_rejected_partial`, `XE.plain_endings_end`, `descriptions_written_partial`, `manifest_descriptions_partial`, `description_unreadable`, `JS.value_round_trip`, `JS.null_round_trip`, `JS.entity_round_trip`, `JS.sample_round_trip`, `JS.moment_refuted`, `JS.moment_kept_iff`, `JS.moment_round_trip`, `JS.offset_refuted`, `JS.moment_read`, `JS.day_zero_refuted`, `JS.read_typed`, `JS.string_typed_refuted`, `JS.fraction_refuted`, `JS.number_boolean_refuted`, `JS.read_exact`, `JS.complex_missing_refuted`, `JS.complex_null_refuted`, `JS.links_round_trip`, `JS.single_link_refuted`, `JS.single_link_never`, `JS.property_read`, `JS.property_refuted`, `JS.foreign_body_refuted`, `Copy.copy_sample`, `Feeds.client_partition`, `Names.names_read`, `Names.removed_means`, `Names.names_written`, `Names.made_ok`, `Names.made_written`, `media_file_written_partial`, `media_file_not_written`, `Names.made_trees_round_trip`, `Names.names_round_trip`, `Names.new_prefix`, `Names.newPrefixFrom_some`, `Names.removed_default_refuted`, `Names.undeclared_prefix_refuted`, `Names.same_attribute_refuted`, `Names.reserved_attribute_refuted`, `Names.attribute_namespace_refuted`, `Names.no_namespace_refuted`, `Names.read_then_write_refuted`, `Names.read_then_write`, `Names.hidden_sample`, `Names.rewritten_means`, `Blti.nonce_sample`, `class_test_correct`, `Blti.key_bits_refuted`, `Blti.short_keys_refuted`, `Blti.default_key_bits`, `Blti.key_bits`, `Blti.key_inj`, `Blti.new_consumer`, `Blti.generated_key_refuted`, `Blti.generated_word`, `Blti.storable_sample`, `Abnf.abnf_accepted_starts`, `Abnf.abnf_choice_refuted`, `Abnf.abnf_refused_partial`, `Abnf.abnf_generated_not_refused_partial`, `equal_classes_same_members`, `same_members_compare_unequal`, `equal_iff_same_members_partial`, `Abnf.abnf_generated_derives`, `Abnf.abnf_add_rule`, `Abnf.abnf_define_rule`, `Abnf.abnf_incremental_upper_refuted`, `Abnf.abnf_incremental_reference_refuted`, `Abnf.abnf_incremental_partial`, `Abnf.abnf_whole_refuted`, `Abnf.abnf_decides_refuted`, `Rfc2234.rfc2234_rewind_sample`, `additions_leave_other_classes_partial`, `Enumeration.enum_sample`, `InputWrapper.input_read`, `InputWrapper.input_sample`, `uri_escape_legal`, `InputWrapper.input_read_all`, `InputWrapper.input_no_more`, `InputWrapper.input_rewind`, `InputWrapper.input_whence`, `InputWrapper.input_line`, `InputWrapper.input_lines_refuted`, `InputWrapper.input_blocks`, `InputWrapper.input_seek_refuted`, `InputWrapper.input_past_end_refuted`, `Atom.atom_sample`, `uri_recompose`, `uri_str`, `uri_accepted`, `Atom.atom_content_type`, `Vfs.path_split`, `Vfs.vfs_sample`, `Vfs.hooks_set`, `Vfs.hooks_twice_refuted`, `Sniff.sniff_sample`, `Sniff.sniff_kind`, `Sniff.sniff_space_refuted`, `Sniff.sniff_far_refuted`, `AutoDetect.xml_marks`, `AutoDetect.xml_no_mark`, `AutoDetect.xml_mark_utf8_refuted`, `AutoDetect.xml_ebcdic_refuted`, `XmlLines.xml_lines`, `XmlLines.xml_lines_sample`, `XmlLines.xml_position_sample`, `XmlLines.xml_utf8_mark`, `uri_relative_resolve_partial`, `uri_relative_resolve_fails`, `expand_contained`, `expand_elsewhere`, `expand_rejects`, `unique_file_ends`, `unique_file_fails`, `manifest_added`, `manifest_deleted`, `bounding_box_partial`, `swapped_rectangle_box`, `offset_moves_area_partial`, `polygon_offset_never_finishes`, `polygon_even_odd`, `polygon_rectangle`, `name_start_test_partial`, `name_char_test_partial`, `astral_name_rejected`, `ncname_test_partial`, `astral_rejected`, `identifiers_collide`, `identifiers_distinct_partial`, `view_not_legal`, `view_legal_partial`, `day_of_week_correct`, `week_date_correct`, `week_date_round_trip`, `week_date_set_partial`, `date_offset_days_partial`, `date_offset_months_partial`, `julian_correct`, `julian_round_trip`, `time_offset_exact_partial`, `shift_zone_exact_partial`, `shift_zone_instant_partial`, `time_point_cmp_partial`, `unix_time_correct`, `uri_unescape_fails`, `uri_server_fails`, `uri_components_shape_partial`, `uri_parse_composed_partial`, `uri_components_shape_fails`, `uri_canonical`, `uri_canonical_plain`, `uri_unicode`, `expand_export`, `delete_file`, `delete_succeeds_partial`, `and_three_valued`, `or_three_valued`, `not_three_valued`, `anyN_three_valued_partial`, `anyN_crossed_limits`, `multiple_unites`, `ordered_concatenates`, `mixed_base_types_rejected`, `container_size`, `member_tests_membership`, `delete_removes_all`, `index_nth`, `random_picks_member`, `match_tests_equality`, `contains_tests_reverse_partial`, `contains_is_reversed`, `sum_of_integers`, `product_of_integers`, `sum_of_numbers`, `product_of_numbers`, `null_operand_gives_null`, `subtract_exact`, `divide_exact`, `integer_division`, `round_nearest`, `truncate_towards_zero`, `integerToFloat_keeps`, `comparisons`, `comparison_null`, `equal_exact`, `equal_within`, `random_integer_in_range`, `random_float_in_range`, `eval_typed`, `evalAll_typed`, `applyOp_typed`, `rules_change_outcomes_only`, `assigned_value_reads_back_partial`, `multiplicity_lost`, `attempts_independent_partial`, `completion_status_carries_over`, `default_name_clash`, `mapping_total`, `mapping_null`, `mapResponse_eval`, `area_mapping_total`, `interpolation_first_entry`, `match_table_entry_partial`, `match_table_uses_last`, `template_reference_unusable`, `substring_tests`, `stringMatch_tests`, `substring_match_tests_reverse_partial`, `substring_match_is_reversed`, `decimal_read`, `double_read`, `boolean_read`, `item_scores_partial`, `rtf_shown_partial`, `rtf_plain_text`, `rtf_outer_format_lost`, `rtf_group_format_lost`, `rtf_escaped_lost`, `rtf_newline_kept`, `rtf_high_characters_fail`, `rtf_colours_shown`, `rtf_reported_partial`, `rtf_not_reported`, `outcomes_begin_with_defaults_partial`, `item_document_partial`, `body_text`, `item_title_injects`, `feedback_title_lost`, `image_attributes_lost`, `image_height_lost`, `image_height_none`, `hotspot_unlimited_lost`, `normal_maximum_zero_lost`, `attribute_break_lost`, `inside_spaces`, `inline_breaks_word`, `manifest_document_partial`, `manifest_contents_partial`, `samplePackage_read`, `qti_metadata_lost`, `catalog_lost`, `vcard_injects`, `item_metadata_partial`, `item_metadata_read`, `metaSample_held`, `field_topic_lost`, `first_title_lost`, `hollow_entries`, `missing_entry_fails`, `lom_terms_partial`, `lom_terms_refuted`, `item_described`, `item_described_sample`, `form_arranged_partial`, `formSample_form`, `form_arranged_refuted`, `choice_exact`, `form_made_partial`, `shuffled_section_fails`, `shuffled_section_no_form`, `empty_mix_no_form`, `form_every_partial`, `plainSample_form`, `form_find`, `session_forward`, `submit_advances`, `jumpEnv_session`, `question_eligible`, `next_question_partial`, `next_question_total`, `navEnv_quiet`, `section_precondition_ignored`, `branch_named`, `branch_exit_test`, `branch_exit_testPart`, `branch_exit_section_partial`, `branch_bad_target`, `jumpEnv_item`, `jumpRules_inEffect`, `jumpEnv_goes`, `exit_section_refuted`, `duration_added`, `question_duration`, `test_duration`, `begin_duration`, `submit_duration`, `jumpEnv_balanced`, `wrong_key_refused`, `key_once`, `keys_distinct`, `key_reused`, `other_modes_fail`, `name_of_first`, `name_unknown`, `material_kept_partial`, `pSample_shown`, `material_kept_refuted`, `interactions_bound`, `pSample_hypotheses`, `interactions_fit_partial`, `interactions_fit_refuted`, `choices_kept_partial`, `madeOf_choice`, `choice_interaction`, `answers_allowed_partial`, `answers_allowed_refuted`, `blanks_collected_refuted`, `regions_kept_partial`
