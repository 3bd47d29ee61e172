{"id": "C01", "title": "Escaped character data reads back unchanged", "statement": "Whatever text the migration tool writes into element content, the tool's own XML/HTML tokenizer reads it back as exactly that text: one text token equal to the original (none for the empty string) and no tags, for every string.", "quantifier": "every character string", "why_tests_cant": "The set of strings is infinite and the interesting ones mix markup characters, digits and semicolons next to generated references; tests sample a handful.", "anchors": ["QTIMigration/lib/xmlutils.py:XMLString", "QTIMigration/lib/xmlutils.py:XMLParser.TokenizeString", "QTIMigration/lib/xmlutils.py:XMLParser.ParseReference"]}
{"id": "C02", "title": "Escaped attribute values cannot break out of their quotes", "statement": "A value written inside a double-quoted attribute of the output reads back as exactly the value given; no value can terminate the attribute early.", "quantifier": "every character string used as an attribute value (identifiers, titles, urls, labels)", "why_tests_cant": "Needs every placement of quotes and references; an example test passes because typical identifiers have no quotes.", "anchors": ["QTIMigration/lib/xmlutils.py:XMLString", "QTIMigration/lib/xmlutils.py:XMLParser.ParseAttValue", "QTIMigration/lib/imscp.py:CPResource.WriteManifestXML"]}
{"id": "C03", "title": "Escaped output is plain ASCII", "statement": "Escaped text contains only 7-bit characters, so it can be written to a file under any ASCII-compatible encoding without an encoding error.", "quantifier": "every character string", "why_tests_cant": "A single missed code point out of 0x110000 falsifies it.", "anchors": ["QTIMigration/lib/xmlutils.py:XMLString"]}
{"id": "C04", "title": "Migration messages never corrupt the output item", "statement": "The comment block that carries warnings into a migrated item is always a well-formed XML comment: its body contains no double hyphen and does not end in a hyphen, whatever the messages are.", "quantifier": "every list of warning messages, any characters", "why_tests_cant": "Overlapping runs of hyphens of any length, split across messages.", "anchors": ["QTIMigration/lib/xmlutils.py:EncodeComment", "QTIMigration/lib/imsqtiv1.py:QTIItem.CloseObject"]}
{"id": "C05", "title": "Path segment encoding is lossless and produces a single safe segment", "statement": "Encoding a file name as a URL path segment and decoding it gives the file name back, and the encoded form contains no slash, question mark, hash or space, for every name over 8-bit characters.", "quantifier": "every string of characters with code at most 255", "why_tests_cant": "Infinite domain; the failing cases are interactions between literal percent signs, hex digits and neighbours.", "anchors": ["QTIMigration/lib/xmlutils.py:EncodePathSegment", "QTIMigration/lib/xmlutils.py:DecodePathSegment"]}
{"id": "C06", "title": "Different media files get different hrefs", "statement": "Two media files added to a package with different contents or different sources are never given the same href in the manifest.", "quantifier": "every history of media files added to one package", "why_tests_cant": "Needs every pair of names and every order of adding them.", "anchors": ["QTIMigration/lib/imsqtiv1.py:QTIItem.AddCPFile", "QTIMigration/lib/imscp.py:ContentPackage.GetUniqueFileName", "QTIMigration/lib/xmlutils.py:EncodePathSegment"]}
{"id": "C07", "title": "Writing a package never touches files outside the package directory", "statement": "Every file written when a package is dumped to a directory lies strictly inside that directory, whatever href is recorded for the file.", "quantifier": "every package directory and every relative href", "why_tests_cant": "Path traversal depends on unbounded sequences of '..', '.', empty and percent-encoded segments.", "anchors": ["QTIMigration/lib/imscp.py:ResolveCPURI", "QTIMigration/lib/imscp.py:CPFile.DumpToDirectory"]}
{"id": "C08", "title": "Resource identifiers in a package are unique", "statement": "After adding any sequence of resources to a package, no two resources carry the same identifier, the search for a free identifier always terminates, and a resource whose requested identifier is free keeps it.", "quantifier": "every finite sequence of resources with arbitrary requested identifiers and metadata", "why_tests_cant": "Depends on the whole history of identifiers, including ones that look like generated ones.", "anchors": ["QTIMigration/lib/imscp.py:ContentPackage.AddResource", "QTIMigration/lib/imscp.py:ContentPackage.GetUniqueID", "QTIMigration/lib/imscp.py:CPResource.AutoSetID"]}
{"id": "C09", "title": "Generated identifiers are legal XML identifiers", "statement": "Every identifier assigned to a resource is non-empty, uses only name-token characters and starts with a letter or underscore; fixing an identifier twice is the same as fixing it once.", "quantifier": "every requested identifier string and every package history", "why_tests_cant": "Domain is all strings; failing inputs are degenerate ones a sample misses.", "anchors": ["QTIMigration/lib/imscp.py:CPResource.FixIdentifier", "QTIMigration/lib/imscp.py:CPResource.AutoSetID", "QTIMigration/lib/lom.py:LOMIdentifier.SuggestXMLID"]}
{"id": "C10", "title": "File names in a package are never reused for different content", "statement": "For any sequence of requests for a unique file name, a name is returned twice only when both requests carried the same non-empty content fingerprint; the search terminates; and the extension of the requested name is preserved.", "quantifier": "every sequence of (suggested name, content fingerprint) requests", "why_tests_cant": "Collisions arise from histories where a generated name was itself requested earlier.", "anchors": ["QTIMigration/lib/imscp.py:ContentPackage.GetUniqueFileName"]}
{"id": "C11", "title": "No package file overwrites the manifest", "statement": "Dumping a package never replaces imsmanifest.xml with the content of an item or media file.", "quantifier": "every history of items and media files", "why_tests_cant": "Needs the one item identifier that collides; not covered by sampling.", "anchors": ["QTIMigration/lib/imscp.py:ContentPackage.DumpToDirectory", "QTIMigration/lib/imscp.py:ContentPackage.GetUniqueFileName", "QTIMigration/lib/imsqtiv1.py:QTIItem.__init__"]}
{"id": "C12", "title": "Response conditions keep their order-and-stop meaning", "statement": "Running the migrated response processing has the same effect as running the original list of respconditions in order, stopping after the first one that matches and is not marked continue, for every list of conditions and every candidate state.", "quantifier": "every finite list of respconditions (any mix of continue flags), every initial state, every interpretation of conditions and actions", "why_tests_cant": "The nesting of if/else-if/else depends on the whole sequence of flags; there are exponentially many shapes.", "anchors": ["QTIMigration/lib/imsqtiv1.py:ResProcessing.AddRespCondition", "QTIMigration/lib/imsqti.py:ResponseCondition", "QTIMigration/lib/imsqti.py:ResponseElse"]}
{"id": "C13", "title": "Different source variables become different variables", "statement": "For any history of response and outcome declarations in one item, distinct source responses get distinct migrated identifiers, no response shares an identifier with an outcome, nobody gets the reserved name FEEDBACK, lookups keep returning what was declared, and re-declaring an existing one is refused instead of silently replacing it.", "quantifier": "every sequence of declarations and lookups on an item", "why_tests_cant": "Name clashes only appear for particular orders of declarations and generated names.", "anchors": ["QTIMigration/lib/imsqtiv1.py:QTIItem.DeclareResponse", "QTIMigration/lib/imsqtiv1.py:QTIItem.DeclareOutcome", "QTIMigration/lib/imsqtiv1.py:QTIItem.UniqueVarName", "QTIMigration/lib/imsqti.py:AssessmentItem.DeclareVariable"]}
{"id": "C14", "title": "Every variable used by a migrated item is declared in it", "statement": "After any sequence of presentation and response-processing declarations, every variable identifier the converter hands out to expressions and rules is declared in the written item.", "quantifier": "every sequence of declare/lookup/reset operations on an item", "why_tests_cant": "Depends on the order in which sections appear; typical items have exactly one of each.", "anchors": ["QTIMigration/lib/imsqtiv1.py:QTIItem.ResetResprocessing", "QTIMigration/lib/imsqti.py:AssessmentItem.ResetResponseProcessing", "QTIMigration/lib/imsqtiv1.py:QTIItem.DeclareFakeResponse", "QTIMigration/lib/imsqtiv1.py:QTIItem.DeclareFeedback"]}
{"id": "C15", "title": "Outcome limits are enforced", "statement": "If an outcome is declared with a minimum and/or maximum, then after the migrated response processing finishes its value is within those limits, for every value the other rules compute.", "quantifier": "every minimum, maximum and computed value", "why_tests_cant": "Boundary values are the failing ones and the computed value ranges over all numbers.", "anchors": ["QTIMigration/lib/imsqtiv1.py:QTIItem.CloseObject", "QTIMigration/lib/imsqtiv1.py:DecVar"]}
{"id": "C16", "title": "setvar actions keep their arithmetic meaning", "statement": "For every action (Set, Add, Subtract, Multiply, Divide) the migrated rule assigns to the outcome the value the original action computes from its previous value and the operand.", "quantifier": "every action, operand and previous value", "why_tests_cant": "Infinite numeric domain, and operand order matters for two of five actions.", "anchors": ["QTIMigration/lib/imsqtiv1.py:SetVar.CloseObject"]}
{"id": "C17", "title": "Condition expressions keep their meaning", "statement": "The migrated condition evaluates to true for exactly the candidate responses for which the original conditionvar is satisfied, for every nesting of and/or/not over response tests.", "quantifier": "every condition tree and every assignment of responses", "why_tests_cant": "Unbounded trees; null responses interact with negation.", "anchors": ["QTIMigration/lib/imsqtiv1.py:ConditionVar", "QTIMigration/lib/imsqtiv1.py:VarEqual", "QTIMigration/lib/imsqtiv1.py:VarThing.MakeVariableExpression", "pyslet/pyslet/qtiv2/expressions.py"]}
{"id": "C18", "title": "Area coordinates keep their numbers", "statement": "The list of numbers in an area description is read in order and completely, whatever separators are used, and the shape produced covers the intended region.", "quantifier": "every list of natural numbers and every choice of separators", "why_tests_cant": "Separators may occur anywhere, in any number.", "anchors": ["QTIMigration/lib/imsqtiv1.py:ConvertAreaCoords"]}
{"id": "C19", "title": "Unsupported elements have no effect", "statement": "Any subtree headed by an unsupported element leaves the migrated item exactly as if the subtree were absent (apart from the warning), and the parser resumes with the enclosing element.", "quantifier": "every well-nested sequence of start/end/text events inside the unsupported element", "why_tests_cant": "Unbounded nesting, including further unsupported and re-entrant element names.", "anchors": ["QTIMigration/lib/imsqtiv1.py:QTIParserV1.startElement", "QTIMigration/lib/imsqtiv1.py:QTIParserV1.endElement"]}
{"id": "C20", "title": "Flow grouping keeps every piece of content in order", "statement": "When loose inline content in a flow is wrapped into paragraphs, no piece is lost, duplicated or reordered, no empty paragraph is created, and no loose inline content remains at block level.", "quantifier": "every sequence of inline and block pieces", "why_tests_cant": "Every interleaving of inline and block runs, of any length.", "anchors": ["QTIMigration/lib/imsqtiv1.py:FlowV1.CloseObject"]}
{"id": "C21", "title": "Embedded HTML always produces balanced element events and keeps the text", "statement": "Whatever tags appear in embedded HTML (unclosed, crossed, stray or self-closing), the converter sees a properly nested sequence of start and end events, and the concatenated text is unchanged.", "quantifier": "every sequence of tags and text pieces", "why_tests_cant": "Tag soup: unbounded nesting depth and mismatch patterns.", "anchors": ["QTIMigration/lib/imsqtiv1.py:MatThing.ParseTextTokens"]}
{"id": "C22", "title": "The embedded-markup tokenizer always finishes and loses no plain text", "statement": "Tokenizing any string either finishes with a token list or reports an error; text without markup characters comes back verbatim.", "quantifier": "every input string", "why_tests_cant": "Termination and progress must hold on all malformed inputs.", "anchors": ["QTIMigration/lib/xmlutils.py:XMLParser"]}
{"id": "C23", "title": "RTF conversion always finishes with balanced tags", "statement": "Tokenizing any RTF string finishes (possibly with an error) and the emitted start and end tags are properly nested.", "quantifier": "every RTF string", "why_tests_cant": "Depends on unbounded interplay of groups, formatting switches and unicode skip counts.", "anchors": ["QTIMigration/lib/rtfutils.py:RTFParser"]}
{"id": "C24", "title": "Windows character repair preserves the text and is idempotent", "statement": "The repaired file denotes the same characters as reading the original as windows-1252, is pure ASCII in ASCII mode, and repairing it again changes nothing.", "quantifier": "every byte string", "why_tests_cant": "Every byte string and every mixture of good and bad bytes.", "anchors": ["QTIMigration/fixwinchars.py:FixFile"]}
{"id": "C25", "title": "Converted identifiers are legal and stable", "statement": "Every identifier produced from a source identifier is a legal identifier of the target format with no dot, and converting it again leaves it unchanged.", "quantifier": "every source string", "why_tests_cant": "All strings over Unicode.", "anchors": ["QTIMigration/lib/imsqtiv1.py:ReadIdentifier", "pyslet/pyslet/qtiv2/core.py:ValidateIdentifier"]}
{"id": "C26", "title": "Warnings are reported once", "statement": "The messages reported for an item contain each distinct warning exactly once, in order of first occurrence, and nothing that was not raised (except forced repeats).", "quantifier": "every sequence of warnings", "why_tests_cant": "History property.", "anchors": ["QTIMigration/lib/imsqtiv1.py:QTIItem.PrintWarning"]}
{"id": "C27", "title": "Calendar arithmetic is exact", "statement": "Converting a date to an absolute day number and back gives the same date, consecutive days get consecutive numbers, and later dates get larger numbers, for every valid date of the supported calendar.", "quantifier": "every valid calendar date / every positive day number", "why_tests_cant": "Leap-year rules need all residues modulo 400 years; tests check a few dates.", "anchors": ["pyslet/pyslet/iso8601.py:Date", "QTIMigration/lib/iso8601.py:ISODate"]}
{"id": "C28", "title": "Time-zone offsets keep their sign", "statement": "Reading a time zone designator yields the signed offset that was written.", "quantifier": "every hour/minute offset and sign", "why_tests_cant": "Needs both signs for every value.", "anchors": ["QTIMigration/lib/iso8601.py:ReadISOTimeZone"]}
{"id": "C29", "title": "No educational description is lost or repeated", "statement": "All educational descriptions of a resource appear exactly once, in order, in the written metadata.", "quantifier": "every list of descriptions", "why_tests_cant": "List length unbounded.", "anchors": ["QTIMigration/lib/lom.py:LOMEducational.WriteIMSXML"]}
{"id": "C30", "title": "Shell paging never shows items out of range", "statement": "Whatever sequence of next/back commands is given, the page displayed is a contiguous window inside the list, and every entry can be reached by paging forward.", "quantifier": "every list length, page size and command sequence", "why_tests_cant": "History property.", "anchors": ["QTIMigration/lib/qtish.py:QTIShell.PrintPage"]}
{"id": "C31", "title": "Every local media file of an item is written with the package", "statement": "When an item refers to a media file by a relative reference, dumping the package writes a file for the href that the item was given, and never fails.", "quantifier": "every relative media reference", "why_tests_cant": "Needs every file name; the failing ones contain characters that are special in URLs.", "anchors": ["QTIMigration/lib/imsqtiv1.py:QTIItem.AddCPFile", "QTIMigration/lib/imscp.py:CPFile.DumpToDirectory", "QTIMigration/lib/xmlutils.py:RelativeURL"]}
{"id": "C32", "title": "Character classes behave as sets", "statement": "After any sequence of additions and subtractions of characters, ranges and classes, testing a character answers exactly whether it belongs to the resulting mathematical set.", "quantifier": "every sequence of operations, every character", "why_tests_cant": "Histories of range merges and splits are unbounded.", "anchors": ["pyslet/pyslet/unicode5.py:CharClass"]}
{"id": "C33", "title": "Equal character classes compare equal", "statement": "Two character classes with the same members compare equal, however they were built.", "quantifier": "every pair of operation histories", "why_tests_cant": "Needs all histories reaching the same set.", "anchors": ["pyslet/pyslet/unicode5.py:CharClass.__eq__", "pyslet/pyslet/unicode5.py:CharClass.Merge"]}
{"id": "C34", "title": "Copies of character classes are independent", "statement": "Modifying a class created as a copy of another leaves the original unchanged.", "quantifier": "every class and every subsequent modification of the copy", "why_tests_cant": "Aliasing shows only for particular later operations.", "anchors": ["pyslet/pyslet/unicode5.py:CharClass.AddClass", "pyslet/pyslet/unicode5.py:CharClass.SubtractChar"]}
{"id": "C35", "title": "URI escaping round-trips", "statement": "Unescaping an escaped octet string returns the original for every choice of reserved characters, and the escaped string consists only of legal URI characters.", "quantifier": "every octet string and every reserved-set predicate", "why_tests_cant": "All strings and all predicates.", "anchors": ["pyslet/pyslet/rfc2396.py:EscapeData", "pyslet/pyslet/rfc2396.py:UnescapeData", "pyslet/pyslet/rfc2396.py:ParseURIC"]}
{"id": "C36", "title": "URI components recompose to the URI", "statement": "Whenever a URI reference is accepted, putting scheme, authority, path, query and fragment back together yields exactly the input.", "quantifier": "every octet string", "why_tests_cant": "State machine over all strings.", "anchors": ["pyslet/pyslet/rfc2396.py:URI"]}
{"id": "C37", "title": "Path normalization terminates, removes navigation and is stable", "statement": "Normalizing a path leaves no '.' segment and no removable '..' segment and normalizing twice is the same as once.", "quantifier": "every list of path segments", "why_tests_cant": "Unbounded nesting of parent references.", "anchors": ["pyslet/pyslet/rfc2396.py:NormalizeSegments"]}
{"id": "C38", "title": "Relative references resolve back", "statement": "Expressing a URI relative to a base and resolving the result against the same base gives the URI back.", "quantifier": "every pair of hierarchical URIs with the same scheme and authority", "why_tests_cant": "Every relationship between two paths.", "anchors": ["pyslet/pyslet/rfc2396.py:URI.Relative", "pyslet/pyslet/rfc2396.py:URI.Resolve", "pyslet/pyslet/rfc2396.py:RelativizeSegments"]}
{"id": "C39", "title": "Unpacking a package archive never writes outside its directory", "statement": "While expanding an archive, every directory created and every file written is inside the package directory, for every archive; offending archives are rejected.", "quantifier": "every list of archive entry names", "why_tests_cant": "Adversarial names of any length.", "anchors": ["pyslet/pyslet/imscpv1p2.py:ContentPackage.ExpandZip", "pyslet/pyslet/imscpv1p2.py:ContentPackage.PackagePath"]}
{"id": "C40", "title": "New package files get fresh paths inside the package", "statement": "The path returned for a new file is not already present in the package, is inside it, and the search ends, whatever random numbers are drawn.", "quantifier": "every file table, suggested path and random choice", "why_tests_cant": "All tables and random draws.", "anchors": ["pyslet/pyslet/imscpv1p2.py:ContentPackage.GetUniqueFile", "pyslet/pyslet/imscpv1p2.py:PathInPath"]}
{"id": "C41", "title": "The manifest is protected", "statement": "A file entry for the manifest itself can neither be added to a resource nor deleted through the package interface.", "quantifier": "every href that denotes the manifest", "why_tests_cant": "All spellings of the manifest path.", "anchors": ["pyslet/pyslet/imscpv1p2.py:ContentPackage.File", "pyslet/pyslet/imscpv1p2.py:ContentPackage.DeleteFile"]}
{"id": "C42", "title": "Shape geometry helpers terminate and are correct", "statement": "Computing the bounding box of any shape terminates with a box containing every vertex, and offsetting a shape terminates and subtracts the offset from every coordinate pair.", "quantifier": "every shape and coordinate list", "why_tests_cant": "Non-termination cannot be concluded from a test.", "anchors": ["pyslet/pyslet/qtiv2/core.py:CalculateShapeBounds", "pyslet/pyslet/qtiv2/core.py:OffsetShape"]}
{"id": "C43", "title": "Polygon hit testing follows the even-odd rule", "statement": "A point is reported inside a polygonal area exactly when a ray from it crosses the polygon an odd number of times, whether or not the last corner repeats the first; a rectangle written as a polygon behaves like the rectangle.", "quantifier": "every polygon with at least three corners and every point", "why_tests_cant": "Vertices on the ray, horizontal edges and self-intersections give unboundedly many configurations.", "anchors": ["pyslet/pyslet/html40_19991224.py:Coords.TestPoly", "pyslet/pyslet/html40_19991224.py:Coords.TestRect"]}
{"id": "C44", "title": "Name tests agree with the XML grammar", "statement": "The tests for name start characters, name characters and NCNames accept exactly the characters and strings of the XML grammar.", "quantifier": "every character and every string", "why_tests_cant": "The whole character repertoire times all strings.", "anchors": ["pyslet/pyslet/xml20081126/structures.py:IsNameStartChar", "pyslet/pyslet/xml20081126/structures.py:IsNameChar", "pyslet/pyslet/xmlnames20091208.py:IsValidNCName"]}
{"id": "C45", "title": "Distinct source identifiers stay distinct", "statement": "Two different identifiers of the source item are never converted to the same identifier of the migrated item.", "quantifier": "every pair of source identifiers", "why_tests_cant": "A collision needs a particular pair out of infinitely many.", "anchors": ["QTIMigration/lib/imsqtiv1.py:QTIObjectV1.ReadIdentifier", "pyslet/pyslet/qtiv2/core.py:ValidateIdentifier"]}
{"id": "C46", "title": "Views are legal in the target format", "statement": "The view recorded for a migrated rubric is one of the views of the target format.", "quantifier": "every view value in the source", "why_tests_cant": "Any string may be given as a view.", "anchors": ["QTIMigration/lib/imsqtiv1.py:QTIObjectV1.ReadView"]}
{"id": "C47", "title": "Weekdays and week dates are exact", "statement": "The day of the week advances by one every day and agrees with a known date, the ISO week date of a day lies in the week that contains the majority of its days, and reading a date's week date back gives the same date.", "quantifier": "every valid calendar date", "why_tests_cant": "The week-year boundary depends on the weekday of January 1 and on leap years, a 400-year cycle.", "anchors": ["QTIMigration/lib/iso8601.py:ISODate.GetWeekday", "QTIMigration/lib/iso8601.py:ISODate.SetWeekday", "QTIMigration/lib/iso8601.py:DayOfWeek"]}
{"id": "C48", "title": "Impossible week dates are rejected", "statement": "Setting a week date with week 53 in a year that has only 52 weeks is an error, and any other week date in range denotes a date whose week date it is.", "quantifier": "every year, week and weekday", "why_tests_cant": "Which years have 53 weeks depends on a 400-year cycle.", "anchors": ["QTIMigration/lib/iso8601.py:ISODate.SetWeekday", "QTIMigration/lib/iso8601.py:WeekCount"]}
{"id": "C49", "title": "Moving a date by an offset is exact", "statement": "Offsetting a date by days and weeks gives the date that many days away, offsetting it by months, years and centuries gives the same day that many months away, a combined offset is the one followed by the other, and the operation fails only if there is no such date.", "quantifier": "every valid date and every offset", "why_tests_cant": "All dates and offsets, including negative ones and month ends.", "anchors": ["pyslet/pyslet/iso8601.py:Date.Offset", "pyslet/pyslet/iso8601.py:Date.FromCalendar"]}
{"id": "C50", "title": "Julian dates are exact", "statement": "Julian dates advance as the Julian calendar does, agree with the Gregorian calendar at its introduction, and convert back to the same date; Julian dates before the first supported day are rejected.", "quantifier": "every valid calendar date", "why_tests_cant": "Two leap-year rules interact over a 400-year cycle.", "anchors": ["pyslet/pyslet/iso8601.py:Date.GetJulianDay", "pyslet/pyslet/iso8601.py:Date.FromJulian"]}
{"id": "C51", "title": "Time arithmetic and zone shifts preserve the instant", "statement": "Adding hours, minutes and seconds moves a time by exactly that much, counting days of overflow; expressing a time or time point in another zone denotes the same instant; both always succeed for legal times and zones.", "quantifier": "every time, offset and pair of zones", "why_tests_cant": "Carries between four fields, negative amounts, and zones up to a day apart on either side.", "anchors": ["pyslet/pyslet/iso8601.py:Time.Offset", "pyslet/pyslet/iso8601.py:Time.ShiftZone", "pyslet/pyslet/iso8601.py:TimePoint.ShiftZone"]}
{"id": "C52", "title": "Time points compare as instants", "statement": "Two complete time points with zones compare as the instants they denote, and the time point for a Unix time is that many seconds after the start of 1970.", "quantifier": "every pair of time points and every Unix time", "why_tests_cant": "All pairs, in all pairs of zones.", "anchors": ["pyslet/pyslet/iso8601.py:TimePoint.__cmp__", "pyslet/pyslet/iso8601.py:TimePoint.FromUnixTime"]}
{"id": "C53", "title": "Unescaping replaces the escapes and nothing else", "statement": "Unescaping replaces every percent sign followed by two hexadecimal digits by that octet and leaves all other characters, including other percent signs, as they are.", "quantifier": "every octet string", "why_tests_cant": "All arrangements of malformed escapes, including at the end of the string.", "anchors": ["pyslet/pyslet/rfc2396.py:UnescapeData"]}
{"id": "C54", "title": "Server authorities are split without loss", "statement": "Splitting an authority gives the user information, host and port it is made of; put together again they are the authority.", "quantifier": "every authority string", "why_tests_cant": "The colon is ambiguous until a later character decides; every mix of user information, host and port must be handled.", "anchors": ["pyslet/pyslet/rfc2396.py:SplitServer"]}
{"id": "C55", "title": "Components of a URI have the shape of the grammar", "statement": "The scheme of an accepted reference is a scheme name, each component ends at its delimiter, and components that exclude each other do not occur together; a reference composed of such components parses into exactly those.", "quantifier": "every accepted octet string and every tuple of components", "why_tests_cant": "A parser with nine modes over unbounded text.", "anchors": ["pyslet/pyslet/rfc2396.py:URI.__init__", "pyslet/pyslet/rfc2396.py:ParseScheme", "pyslet/pyslet/rfc2396.py:URI.ParseSchemeSpecificPart", "pyslet/pyslet/rfc2396.py:URI.ParseRelativeURI"]}
{"id": "C56", "title": "Canonical URI text is equivalent, legal and stable", "statement": "The canonical form of octet text stands for the same octets, is legal URI text, has no escape for a letter, digit or mark, and is its own canonical form.", "quantifier": "every octet string whose percent signs begin escapes", "why_tests_cant": "Every mixture of escaped and unescaped octets.", "anchors": ["pyslet/pyslet/rfc2396.py:CanonicalizeData"]}
{"id": "C57", "title": "Path segments split into name and parameters without loss", "statement": "The name and the parameters of a path segment joined by semicolons are the segment, and none of them contains a semicolon.", "quantifier": "every segment", "why_tests_cant": "Any number of parameters, empty ones included.", "anchors": ["pyslet/pyslet/rfc2396.py:SplitPathSegment"]}
{"id": "C58", "title": "Unicode URIs become legal URIs", "statement": "A URI with characters above U+007F is turned into legal URI text that stands for its UTF-8 encoding.", "quantifier": "every unicode string", "why_tests_cant": "All characters and positions.", "anchors": ["pyslet/pyslet/rfc2396.py:EncodeUnicodeURI"]}
{"id": "C59", "title": "An exported package unpacks to the same files", "statement": "Writing a package to an archive and expanding that archive into an empty directory succeeds and yields exactly the files and directories of the package whose names are not ignored, with the same contents at the same paths, and changes nothing else.", "quantifier": "every directory tree with distinct proper names, every ignore rule and every file name encoding that can be decoded", "why_tests_cant": "needs induction over directory trees of any shape; tests export a handful of packages", "anchors": ["pyslet/pyslet/imscpv1p2.py:ContentPackage.ExportToPIF", "pyslet/pyslet/imscpv1p2.py:ContentPackage.AddToZip", "pyslet/pyslet/imscpv1p2.py:ContentPackage.ExpandZip"]}
{"id": "C60", "title": "Deleting a package file removes it everywhere and nothing else", "statement": "Deleting a local file of the package removes it from disk, from the file table and from every resource that refers to it, and leaves every other file, table entry and reference alone; afterwards, and after files are added, every referenced package file is in the file table.", "quantifier": "every package, every file and every set of references", "why_tests_cant": "quantifies over all packages and all combinations of references, including references to remote files", "anchors": ["pyslet/pyslet/imscpv1p2.py:ContentPackage.DeleteFile", "pyslet/pyslet/imscpv1p2.py:ContentPackage.File", "pyslet/pyslet/vfs.py:VirtualFilePath.__cmp__"]}
{"id": "C61", "title": "Logical operators follow three-valued logic", "statement": "For every list of truth values, NULL included, and/or/not/anyN evaluate to a truth value exactly when every way of filling in the NULLs gives that truth value, and to NULL otherwise.", "quantifier": "every number of operands and every mix of true, false and NULL; every min and max for anyN", "why_tests_cant": "Unbounded operand lists; NULLs interact with the counting in anyN.", "anchors": ["pyslet/pyslet/qtiv2/expressions.py:And", "pyslet/pyslet/qtiv2/expressions.py:Or", "pyslet/pyslet/qtiv2/expressions.py:Not", "pyslet/pyslet/qtiv2/expressions.py:AnyN"]}
{"id": "C62", "title": "Container operators compute what QTI says", "statement": "multiple and ordered collect exactly the given members (all of one base type, else an error); containerSize, member, delete, index, random, contains and match give the size, the membership test, the container without the value, the n-th member, some member, the sub-container test (first operand contains the second) and equality (of multisets, or of sequences if ordered).", "quantifier": "every container, every base type, every index and every random draw", "why_tests_cant": "Containers have unbounded size and repeated members; order matters for some cardinalities only.", "anchors": ["pyslet/pyslet/qtiv2/expressions.py:Multiple", "pyslet/pyslet/qtiv2/expressions.py:Ordered", "pyslet/pyslet/qtiv2/expressions.py:ContainerSize", "pyslet/pyslet/qtiv2/expressions.py:Member", "pyslet/pyslet/qtiv2/expressions.py:Delete", "pyslet/pyslet/qtiv2/expressions.py:Index", "pyslet/pyslet/qtiv2/expressions.py:Random", "pyslet/pyslet/qtiv2/expressions.py:Contains", "pyslet/pyslet/qtiv2/expressions.py:Match"]}
{"id": "C63", "title": "Arithmetic operators are exact and NULL-strict", "statement": "sum, product, subtract, divide, integerDivide, integerModulus, round, truncate, integerToFloat and the comparisons give the mathematical result (round: nearest, halves up; integer division: floor; modulus: remainder with the sign of the divisor); any NULL operand, division by zero or unrepresentable integer gives NULL or an error, never a wrong number.", "quantifier": "every list of numbers", "why_tests_cant": "Infinite numeric domain; boundary, sign and NULL cases.", "anchors": ["pyslet/pyslet/qtiv2/expressions.py:Sum", "pyslet/pyslet/qtiv2/expressions.py:Product", "pyslet/pyslet/qtiv2/expressions.py:Subtract", "pyslet/pyslet/qtiv2/expressions.py:Divide", "pyslet/pyslet/qtiv2/expressions.py:IntegerDivide", "pyslet/pyslet/qtiv2/expressions.py:IntegerModulus", "pyslet/pyslet/qtiv2/expressions.py:Truncate", "pyslet/pyslet/qtiv2/expressions.py:Round", "pyslet/pyslet/qtiv2/expressions.py:LT", "pyslet/pyslet/qtiv2/expressions.py:Equal"]}
{"id": "C64", "title": "Evaluation never produces an ill-typed value", "statement": "In any session whose variables hold values of their declared types, every expression that evaluates gives a value whose members all belong to its base type and are in the representable range.", "quantifier": "every expression tree and every session state", "why_tests_cant": "Unbounded expression trees over thirty operators.", "anchors": ["pyslet/pyslet/qtiv2/expressions.py", "pyslet/pyslet/qtiv2/variables.py:Value"]}
{"id": "C65", "title": "Response processing changes outcome variables only", "statement": "Running any response processing leaves every variable that is not an outcome, and every declaration, unchanged, and keeps every variable well typed.", "quantifier": "every list of rules, nested to any depth, and every session", "why_tests_cant": "Unbounded nesting, early exit anywhere.", "anchors": ["pyslet/pyslet/qtiv2/processing.py:ResponseProcessing.Run", "pyslet/pyslet/qtiv2/processing.py:SetValue"]}
{"id": "C66", "title": "An assigned value reads back", "statement": "After setOutcomeValue the variable holds the value of the expression, for every value the variable's type admits.", "quantifier": "every value of the declared type", "why_tests_cant": "A container has arbitrarily many members, possibly repeated.", "anchors": ["pyslet/pyslet/qtiv2/processing.py:SetValue", "pyslet/pyslet/qtiv2/variables.py:SessionState.__setitem__", "pyslet/pyslet/qtiv2/variables.py:MultipleContainer"]}
{"id": "C67", "title": "Attempts of a non-adaptive item are scored independently", "statement": "The outcomes after an attempt depend on the responses of that attempt only, not on the outcomes left by previous attempts.", "quantifier": "every item, every history of attempts", "why_tests_cant": "Histories are unbounded; one variable that is not reset is enough.", "anchors": ["pyslet/pyslet/qtiv2/variables.py:ItemSessionState.EndAttempt", "pyslet/pyslet/qtiv2/variables.py:ItemSessionState.SetOutcomeDefaults"]}
{"id": "C68", "title": "Mapped scores count each distinct answer once, within the bounds", "statement": "mapResponse (mapResponsePoint) gives the sum over the distinct members (areas hit) of the mapped values, default for those without an entry (points in no area), kept between lowerBound and upperBound, and zero for NULL.", "quantifier": "every mapping and every response", "why_tests_cant": "Unbounded responses with repeats; overlapping areas.", "anchors": ["pyslet/pyslet/qtiv2/variables.py:Mapping.MapValue", "pyslet/pyslet/qtiv2/variables.py:AreaMapping.MapValue"]}
{"id": "C69", "title": "Lookup tables use the first matching entry", "statement": "A match table gives the target of the first entry equal to the source, an interpolation table that of the first entry whose boundary is passed, and the default if there is none.", "quantifier": "every table and every number", "why_tests_cant": "Unbounded tables with overlapping entries.", "anchors": ["pyslet/pyslet/qtiv2/variables.py:MatchTable.Lookup", "pyslet/pyslet/qtiv2/variables.py:InterpolationTable.Lookup"]}
{"id": "C70", "title": "Operator attributes may refer to variables", "statement": "Where an operator attribute is an integer-or-template-variable reference, a reference {NAME} takes the value of the variable NAME.", "quantifier": "every name and every value of the variable", "why_tests_cant": "The value of the variable is only known in the session.", "anchors": ["pyslet/pyslet/qtiv2/expressions.py:Expression.GetTemplateRef", "pyslet/pyslet/qtiv2/core.py:GetTemplateRef"]}
{"id": "C71", "title": "String operators test what they say", "statement": "stringMatch and substring compare the texts of their operands, honouring caseSensitive; substring tests that the first is contained in the second; stringMatch with substring=true tests that the first contains the second.", "quantifier": "every pair of strings", "why_tests_cant": "Infinite domain; direction of containment.", "anchors": ["pyslet/pyslet/qtiv2/expressions.py:StringMatch", "pyslet/pyslet/qtiv2/expressions.py:Substring"]}
{"id": "C72", "title": "Numbers and truth values in schema notation are read exactly when legal", "statement": "The text of an integer, decimal, double or boolean value is accepted exactly when it is a legal literal of that type, and the value read is the one the literal denotes. Every integer and truth value that is written reads back as itself.", "quantifier": "every text, integer and truth value", "why_tests_cant": "The texts form an infinite language; a test can only sample accepted and refused literals.", "anchors": ["pyslet/pyslet/xsdatatypes20041028.py:DecodeInteger", "pyslet/pyslet/xsdatatypes20041028.py:DecodeDecimal", "pyslet/pyslet/xsdatatypes20041028.py:DecodeDouble", "pyslet/pyslet/xsdatatypes20041028.py:DecodeBoolean", "pyslet/pyslet/xsdatatypes20041028.py:EncodeInteger"]}
{"id": "C73", "title": "A migrated item gives the scores and feedback of the original", "statement": "For a version 1 item whose conditions, setvar actions and limits are of the kinds migration keeps, running the response processing of the migrated item on a session that holds the candidate's answers ends without error and leaves in each outcome the number that version 1 processing computes (conditions tried in order, effects of those satisfied performed, stopping after one without continue, then limits applied), and in FEEDBACK exactly the feedback that version 1 shows.", "quantifier": "all lists of response conditions with any nesting of and/or/not, any continue flags, any effects; all answers; all previous values of the outcomes; all limits", "why_tests_cant": "It composes condition translation, the nesting of else-branches made from continue flags, arithmetic of setvar and limit rules over unbounded lists of conditions and every combination of answers.", "anchors": ["QTIMigration/lib/imsqtiv1.py:RespCondition", "QTIMigration/lib/imsqtiv1.py:ConditionVar", "QTIMigration/lib/imsqtiv1.py:SetVar", "QTIMigration/lib/imsqtiv1.py:DisplayFeedback", "QTIMigration/lib/imsqtiv1.py:AddRespCondition", "pyslet/pyslet/qtiv2/processing.py:ResponseProcessing.Run"]}
{"id": "C74", "title": "RTF text and formatting survive", "statement": "The tokens made from an RTF document show the same characters, paragraph breaks and line breaks in the same order, each character bold, italic, small or big exactly where the document says so.", "quantifier": "every RTF document built from text, groups, bold, italic, size, plain, par, line, special characters, unicode escapes, escaped characters, broken lines, font and colour tables", "why_tests_cant": "Group nesting and command sequences are unbounded; state is saved and restored per group.", "anchors": ["QTIMigration/lib/rtfutils.py:RTFParser.TokenizeString", "QTIMigration/lib/rtfutils.py:RTFState"]}
{"id": "C75", "title": "Unreadable RTF is reported with the documented error", "statement": "Tokenizing any text either gives tokens or raises RTFException, which the callers turn into a warning; no other error escapes and stops the migration.", "quantifier": "every RTF string", "why_tests_cant": "Depends on every command with every missing, negative or huge parameter, at every position.", "anchors": ["QTIMigration/lib/rtfutils.py:RTFParser.TokenizeString", "QTIMigration/lib/imsqtiv1.py:MatText.CloseObject"]}
{"id": "C76", "title": "Attempts begin with the default outcomes", "statement": "When an attempt at a non-adaptive item is scored, every declared outcome begins with its default value, or with zero if it is a single number without default, and all other variables are as they were.", "quantifier": "every item and every session", "why_tests_cant": "Any number of outcomes, any values left by earlier attempts.", "anchors": ["pyslet/pyslet/qtiv2/variables.py:ItemSessionState.EndAttempt", "pyslet/pyslet/qtiv2/variables.py:ItemSessionState.SetOutcomeDefaults"]}
{"id": "C77", "title": "Written items are well-formed XML that carries the item", "statement": "The file written for a migrated item is well-formed XML, and an XML processor reports from it exactly the item: its identifier, title and options, its variable declarations, every element, attribute and text of its body in order, its response processing and its feedback.", "quantifier": "every item: any declarations, any nesting of body elements, interactions, conditions and expressions, any texts, any migration messages", "why_tests_cant": "Trees of unbounded depth and arbitrary text in every attribute and text position; well-formedness is a property of the whole file.", "anchors": ["QTIMigration/lib/imsqti.py:AssessmentItem.WriteXML", "QTIMigration/lib/imsqti.py:BodyElement.WriteXMLAttributes", "QTIMigration/lib/imsqti.py:ChoiceInteraction.WriteXML", "QTIMigration/lib/imsqti.py:ResponseCondition.WriteXML", "QTIMigration/lib/imsqti.py:OutcomeDeclaration.WriteXML", "QTIMigration/lib/imsqti.py:ModalFeedback.WriteXML", "QTIMigration/lib/imsqtiv1.py:QTIItem.CloseObject", "QTIMigration/lib/xmlutils.py:XMLString", "QTIMigration/lib/xmlutils.py:EncodeComment"]}
{"id": "C78", "title": "The manifest is well-formed XML that lists the package", "statement": "The manifest written for a content package is a well-formed XML document. Read by an XML processor it lists exactly the package's resources in order, each with its identifier, type, entry point, files and metadata, with every text unchanged, and carries the package's own metadata; the manifest identifier is the one set or a new one.", "quantifier": "every content package: any number of resources, files, metadata categories and texts", "why_tests_cant": "a test compares one manifest; that no text, however chosen, can break or reorder the document is a statement about all packages, and dropped parts show only for combinations no fixture has", "anchors": ["QTIMigration/lib/imscp.py: ContentPackage.WriteManifestXML, CPResource.WriteManifestXML, CPFile.WriteManifestXML", "QTIMigration/lib/lom.py: LOM.WriteIMSXML, LOMIdentifier.WriteIMSXML, LOMContribute.WriteIMSXML", "QTIMigration/lib/imsqti.py: QTIMetadata.WriteXML"]}
{"id": "C79", "title": "The metadata of an item survive migration", "statement": "Everything the metadata of a version 1 item say, in qmd elements, labelled fields or objectives, is in the metadata of the migrated resource: keywords, descriptions, topics and objectives, contexts of use, difficulty, status, tool vendor, contributors, title and maximum score, each in its own place and in the order given.", "quantifier": "every item, every list of metadata of the item, every language and title, both settings of the two options", "why_tests_cant": "metadata come in any number, mixture and order, and later ones may overwrite earlier ones; tests see a few lists", "anchors": ["QTIMigration/lib/imsqtiv1.py:QMDLevelOfDifficulty.CloseObject", "QTIMigration/lib/imsqtiv1.py:QMDKeywords.CloseObject", "QTIMigration/lib/imsqtiv1.py:QMDContributor.CloseObject", "QTIMigration/lib/imsqtiv1.py:QTIMetadataField.CloseObject", "QTIMigration/lib/imsqtiv1.py:QTIItem.SetTitle", "QTIMigration/lib/imsqtiv1.py:QTIItem.CloseObject"]}
{"id": "C80", "title": "Values attributed to LOM are terms of LOM", "statement": "When the metadata of a migrated item give LOMv1.0 as the source of a context, difficulty, status or role, the value is one of the terms that LOM 1.0 defines there.", "quantifier": "every item and every list of its metadata", "why_tests_cant": "the values come from free text in the source; tests see a few texts", "anchors": ["QTIMigration/lib/imsqtiv1.py:QMDLevelOfDifficultyMap", "QTIMigration/lib/imsqtiv1.py:QMDStatusMap", "QTIMigration/lib/imsqtiv1.py:LOMContributorMap", "QTIMigration/lib/imsqtiv1.py:QTIItem.AddEducationalContext", "QTIMigration/lib/imsqtiv1.py:QMDContributor.CloseObject"]}
{"id": "C81", "title": "The QTI metadata describe the item", "statement": "The resource of a migrated item carries the identifier of the item, and its QTI metadata say what the item is like: it is not a template, it is composite just when it has more than one response, every type of interaction it uses is named exactly once, and the feedback type is nonadaptive just when there is modal feedback.", "quantifier": "every item, every list of its metadata, every number of responses and every list of interactions", "why_tests_cant": "interactions and metadata come in any number and order; tests see a few items", "anchors": ["QTIMigration/lib/imsqtiv1.py:QTIItem.GenerateQTIMetadata", "QTIMigration/lib/imsqtiv1.py:QTIItem.SetAttribute_ident", "QTIMigration/lib/imsqti.py:QTIMetadata.AddInteractionType"]}
{"id": "C82", "title": "Test forms follow the selection and ordering rules", "statement": "Whatever the random choices are, if a test form is made, then it is the empty identifier of the test followed by an arrangement of the test: each test part and section that is shown stands as its identifier, its contents and its closing identifier; in each section exactly the number of children that the selection asks for is chosen, all required ones among them, none twice unless there is replacement; children that are not shuffled, or are fixed, stand in the order of the test, each in its own place; the places of the others are filled, at least one in each, with a permutation of what the others bring (themselves, or, for an invisible section that is not kept together, its contents).", "quantifier": "all tests whose identifiers differ, all random choices", "why_tests_cant": "Forms are random and the tests nest to any depth; a unit test sees a few forms of a few tests.", "anchors": ["pyslet/pyslet/qtiv2/tests.py:TestForm.__init__", "pyslet/pyslet/qtiv2/tests.py:TestForm.Select"]}
{"id": "C83", "title": "A form can always be made of a test whose rules can be followed", "statement": "If every selection rule of a test can be satisfied (there are enough children, and not more required ones than are selected), making a form succeeds whatever the random choices are; if a rule cannot be satisfied, selection reports it.", "quantifier": "all tests, all random choices", "why_tests_cant": "A failure may need an unlucky random choice or a combination of ordering options.", "anchors": ["pyslet/pyslet/qtiv2/tests.py:TestForm.Select"]}
{"id": "C84", "title": "Every form that the rules allow can occur", "statement": "For every arrangement of a test that its selection and ordering rules allow there are random choices that make the form of the test this arrangement.", "quantifier": "all tests, all arrangements", "why_tests_cant": "It is a statement about the set of all random choices.", "anchors": ["pyslet/pyslet/qtiv2/tests.py:TestForm.Select"]}
{"id": "C85", "title": "A form tells where its components are", "statement": "find(identifier) gives exactly the places, in increasing order, at which the identifier stands in the form; for an identifier that does not occur it gives the empty list.", "quantifier": "all forms, all identifiers", "why_tests_cant": "Forms have any length, and identifiers may repeat under selection with replacement.", "anchors": ["pyslet/pyslet/qtiv2/tests.py:TestForm.find"]}
{"id": "C86", "title": "A test session only goes forward", "statement": "Whatever requests a test session gets (begin, save, submit, with any keys, parameters and times), the current question never goes back to an earlier place of the form, and once the session is over it stays over; every submission that raises nothing leaves the current question for a later one or ends the test.", "quantifier": "all forms, tests, behaviours of items and expressions, and all finite histories of requests", "why_tests_cant": "Requests come in any order and number; branch rules, pre-conditions and exceptions could each lead back.", "anchors": ["pyslet/pyslet/qtiv2/variables.py:TestSessionState._NextQuestion", "pyslet/pyslet/qtiv2/variables.py:TestSessionState.SubmitSession"]}
{"id": "C87", "title": "The next question is the first that may be asked", "statement": "Without branch rules in effect, the question that comes after another is the first later item whose own pre-conditions, and those of the sections and the part around it, are true; if there is none the test is over. A question that comes has pre-conditions that are true.", "quantifier": "all forms and states, all expressions", "why_tests_cant": "The pre-conditions are evaluated on states that arise from any history of answers, on tests of any depth.", "anchors": ["pyslet/pyslet/qtiv2/variables.py:TestSessionState._NextQuestion", "pyslet/pyslet/qtiv2/tests.py:SectionPart.CheckPreConditions"]}
{"id": "C88", "title": "Branch rules go where they say", "statement": "If the first branch rule of the current question whose expression is true names a section or item of the same test part, the session goes on at the next place this has in the form (or ends if there is none); EXIT_SECTION goes on after the end of the section, EXIT_TESTPART after the end of the part, EXIT_TEST ends the test; a rule with another target is reported and nothing changes.", "quantifier": "all forms and states, all branch rules", "why_tests_cant": "Where the ends of sections stand depends on selection and nesting.", "anchors": ["pyslet/pyslet/qtiv2/variables.py:TestSessionState._BranchTarget", "pyslet/pyslet/qtiv2/tests.py:SectionPart.GetBranchTarget"]}
{"id": "C89", "title": "Time is counted where it is spent", "statement": "The time between requests is added to the duration of the current question, of each section and test part around it, and of the test, and to no other; so over any history the duration of a question is the time during which it was the current question, and the duration of the test the time during which there was one.", "quantifier": "all forms, all histories of requests at any times", "why_tests_cant": "Sections nest to any depth and requests come at any times.", "anchors": ["pyslet/pyslet/qtiv2/variables.py:TestSessionState.AddDuration", "pyslet/pyslet/qtiv2/variables.py:TestSessionState.EventUpdate"]}
{"id": "C90", "title": "A session key works once", "statement": "A request with a key other than the current one is refused and changes nothing; a key that was accepted before is refused as expired, whatever happened since, as long as the times at which requests are handled give different keys.", "quantifier": "all histories of requests with any keys", "why_tests_cant": "Replays may come after any number of other requests.", "anchors": ["pyslet/pyslet/qtiv2/variables.py:TestSessionState.EventUpdate"]}
{"id": "C91", "title": "Every navigation and submission mode can be delivered", "statement": "A test whose parts are nonlinear, or are submitted as a whole (simultaneous), is delivered like any other: its questions come up and pages are made for them.", "quantifier": "all tests and histories of requests", "why_tests_cant": "The modes combine with any test and any history.", "anchors": ["pyslet/pyslet/qtiv2/variables.py:TestSessionState.SubmitSession", "pyslet/pyslet/qtiv2/variables.py:TestSessionState.AddHTMLNavigation", "pyslet/pyslet/qtiv2/tests.py:SectionPart.CheckPreConditions"]}
{"id": "C92", "title": "Names of variables are resolved in the right place", "statement": "A variable name without a full stop is one of the test; one that follows an identifier and a full stop is one of the first component of the form with this identifier, and an error if there is none.", "quantifier": "all forms, all names", "why_tests_cant": "Names and forms are arbitrary, and identifiers may repeat under selection with replacement.", "anchors": ["pyslet/pyslet/qtiv2/variables.py:TestSessionState.GetNamespace"]}
{"id": "C93", "title": "Everything shown by a question is shown after migration", "statement": "The texts, images, sounds and line breaks of a version 1 presentation, including those in choices, appear in the item body of the migrated item in the same order, and nothing else appears.", "quantifier": "all presentations: any nesting of flows, materials, responses, renderings and labels", "why_tests_cant": "Presentations nest without bound and the converter regroups what it finds at every level (paragraphs, prompts, text before and after the choices); tests check a few layouts.", "anchors": ["QTIMigration/lib/imsqtiv1.py: Presentation, FlowV1.CloseObject, Material, ResponseThing.CloseObject, RenderThing.AppendElement/AppendLabel, RenderFib.CloseObject, ResponseLabel.CloseObject"]}
{"id": "C94", "title": "Each question of an item has a response of its own", "statement": "In the migrated item every interaction is bound to a response that is declared exactly once and as a response, and two interactions never share one.", "quantifier": "all presentations the converter accepts, with any number of responses and blanks", "why_tests_cant": "Names are made unique against everything declared before, so the property is about all combinations of identifiers in an item.", "anchors": ["QTIMigration/lib/imsqtiv1.py: QTIItem.DeclareResponse, BindResponse, ResponseThing.CloseObject, RenderFib.CloseObject"]}
{"id": "C95", "title": "A response has a type that suits its question", "statement": "The cardinality and base type declared for the response of an interaction are ones the target format allows for that kind of interaction (identifiers for choices, pairs for associations, points for points on images, numbers for sliders, text or numbers for blanks).", "quantifier": "all presentations the converter accepts", "why_tests_cant": "Kind, cardinality and type come from three nested elements; their combinations with several renderings are not enumerated by tests.", "anchors": ["QTIMigration/lib/imsqtiv1.py: ResponseThing, ResponseNum, RenderChoice, RenderHotspot, RenderSlider, RenderFib"]}
{"id": "C96", "title": "Choices are kept", "statement": "A choice question offers after migration one choice for each label of the source, in the same order, with its identifier and its contents, fixed in its place exactly if the source fixes it; choices are shuffled exactly if the source says so.", "quantifier": "all presentations the converter accepts and every choice question in them, with any number of labels in any nesting of label flows", "why_tests_cant": "Any number of labels with any contents and attributes.", "anchors": ["QTIMigration/lib/imsqtiv1.py: RenderChoice, ResponseLabel.CloseObject, FlowLabel"]}
{"id": "C97", "title": "A question allows as many answers as in the source", "statement": "A migrated choice question lets the candidate give as many answers as the version 1 question: one for a single response, up to the maximum when there is one, any number otherwise.", "quantifier": "all presentations the converter accepts and every choice question in them", "why_tests_cant": "All combinations of cardinality and limits at any place in a presentation.", "anchors": ["QTIMigration/lib/imsqtiv1.py: RenderChoice.CloseObject"]}
{"id": "C98", "title": "Blanks in a text are asked one by one and put together", "statement": "A fill-in question with several blanks becomes as many text entries in the text, and the item has a rule that puts their answers together, in their order, in a variable with the name and cardinality of the original response.", "quantifier": "all presentations the converter accepts, with any number of blanks", "why_tests_cant": "The number of blanks is not bounded and the names of the partial responses may collide with others in the item.", "anchors": ["QTIMigration/lib/imsqtiv1.py: RenderFib.CloseObject, ResponseThing.CloseObject, QTIItem.DeclareFakeResponse, QTIItem.ResetResprocessing"]}
{"id": "C99", "title": "Regions of an image are kept", "statement": "A question about an image asks after migration about the same image, and each region keeps its identifier, its order and its shape and coordinates as converted.", "quantifier": "all presentations the converter accepts and every image question in them, with any number of regions", "why_tests_cant": "Any number of regions in any nesting, and material in any place around them.", "anchors": ["QTIMigration/lib/imsqtiv1.py: RenderHotspot, ResponseLabel.CloseObject, ConvertAreaCoords; imsqti.py: ExtractImages"]}
{"id": "C100", "title": "A slider keeps its settings", "statement": "A migrated slider has the bounds, the steps, the orientation, the start value and the labelling of steps of the source, or the defaults of the source format.", "quantifier": "all presentations the converter accepts and every slider in them", "why_tests_cant": "All combinations of present, absent and malformed attributes and number types.", "anchors": ["QTIMigration/lib/imsqtiv1.py: RenderSlider"]}
{"id": "C101", "title": "Feedback, rubrics and objectives show what they showed", "statement": "The texts, images, sounds and line breaks of feedback (with solutions and hints), rubrics and objectives appear, in order, in the migrated feedback, rubric or description; a rubric is seen by those whom the source names, and solutions and hints are marked as such.", "quantifier": "all feedback, rubrics and objectives, with any nesting of material", "why_tests_cant": "Nesting is not bounded and blocks are regrouped at each level.", "anchors": ["QTIMigration/lib/imsqtiv1.py: ItemFeedback, SolutionMaterial, HintMaterial, Rubric, Objectives; imsqti.py: ExtractText"]}
{"id": "C102", "title": "Presentations do not make the converter fail", "statement": "Reading a presentation gives an item body or an error that reports a mistake of the source, never an internal failure such as a missing attribute.", "quantifier": "all presentations", "why_tests_cant": "Failures hide in combinations of response and rendering kinds with absent attributes.", "anchors": ["QTIMigration/lib/imsqtiv1.py: RenderHotspot.__init__, RenderSlider.__init__, RenderFib.__init__, ResponseLabel; imsqti.py: ExtractText, ExtractImages"]}
{"id": "C103", "title": "A text question keeps its field", "statement": "A migrated text question has the expected length that the source gives (in characters, or as rows and columns), the look of the field as its class, base ten exactly when a number is asked for, and allows as many answers as the source.", "quantifier": "all presentations the converter accepts and every fill-in question in them, with any attributes", "why_tests_cant": "All combinations of present, absent and malformed attributes, labels and material have to be considered.", "anchors": ["QTIMigration/lib/imsqtiv1.py: RenderFib"]}
{"id": "C104", "title": "Feedback is displayed when the source displays it", "statement": "When a response condition of the source displays feedback, the migrated rule makes exactly the migrated feedback of that name appear, whatever was shown before; feedback already shown stays.", "quantifier": "all names, all feedback, all states of a session", "why_tests_cant": "Names are not bounded, and the conversions of the reference and of the name have to agree on all of them.", "anchors": ["QTIMigration/lib/imsqtiv1.py: DisplayFeedback, ItemFeedback; imsqti.py: ModalFeedback"]}
{"id": "C105", "title": "Pages of a data feed partition it", "statement": "Reading a collection of a data service page by page, with any page size and any limit on it, gives every entity exactly once and in order: the pages, one after the other, are what the collection lists without paging; no page is larger than asked for.", "quantifier": "all collections, page sizes, server limits, numbers of pages and places to start", "why_tests_cant": "Off-by-one errors at page boundaries depend on the number of entities, the page size and the server limit together.", "anchors": ["pyslet/pyslet/odata2/csdl.py: EntityCollection.iterpage, SetPage, TopMax, NextSkipToken"]}
{"id": "C106", "title": "A client that follows next links gets what it asked for", "statement": "A client that asks for a feed and follows its next links receives the entities the server has for the query, no more than it asked for with $top, and stops: the last page has no next link.", "quantifier": "all collections, values of $skip and $top and server page sizes", "why_tests_cant": "A wrong link shows only when the number of entities and the page size stand in a particular relation.", "anchors": ["pyslet/pyslet/odata2/server.py: ODataServer.ReturnEntityCollection", "pyslet/pyslet/odata2/client.py: feed iteration (199-237)", "pyslet/pyslet/odata2/core.py: GetNextPageLocation", "pyslet/pyslet/odata2/csdl.py: NextSkipToken"]}
{"id": "C107", "title": "Paged results are in the order asked for", "statement": "Entities listed page by page with an ordering are sorted by the first rule, then the second and so on, ascending or descending as asked, with the key as the last resort, so that the order does not depend on the store.", "quantifier": "all entities, rules and directions, for every comparison", "why_tests_cant": "Sorting by several keys with directions is right or wrong only for combinations of ties.", "anchors": ["pyslet/pyslet/odata2/csdl.py: EntityCollection.OrderEntities, OrderBy"]}
{"id": "C108", "title": "What is written to a data store is read back", "statement": "After inserting an entity it is found under its key with the values given; after updating an entity the selected properties have the new values and the others the old ones; no other entity changes. Reading with a selection gives the selected properties and keys, and null for the others.", "quantifier": "all entity types (with nested complex types), stores, entities, selections and histories of operations", "why_tests_cant": "Entities are kept as tuples by position; misalignment depends on the type, the selection and the history.", "anchors": ["pyslet/pyslet/odata2/memds.py: InMemoryEntityStore.AddEntity, ReadEntity, UpdateEntity, EntityCollection.InsertEntity, UpdateEntity"]}
{"id": "C109", "title": "Inserting an entity replaces none", "statement": "Inserting an entity under a key that is taken is refused; a generated key is one that is not in use.", "quantifier": "all stores, histories, entities and collections (with or without filter)", "why_tests_cant": "The key may be taken by any history of insertions and deletions.", "anchors": ["pyslet/pyslet/odata2/memds.py: EntityCollection.InsertEntity, InMemoryEntityStore.NextKey"]}
{"id": "C110", "title": "A selection of properties does not change which entities are returned", "statement": "Asking for some of the properties of entities changes what is shown of each entity, not which entities are listed, in which order, or their number.", "quantifier": "all entity types, stores, selections, filters and orderings", "why_tests_cant": "Interaction of three query options over arbitrary filters and data.", "anchors": ["pyslet/pyslet/odata2/memds.py: EntityCollection.itervalues, __len__, InMemoryEntityStore.ReadEntity"]}
{"id": "C111", "title": "A key is in a collection exactly if it is listed", "statement": "A collection, also one of the entities linked to an entity, contains a key exactly if listing the collection yields the entity with this key, and looking it up gives that entity.", "quantifier": "all stores, filters, selections, orderings and links", "why_tests_cant": "The two ways are different code, and have to agree on all filters and data.", "anchors": ["pyslet/pyslet/odata2/memds.py: EntityCollection.__getitem__, itervalues, NavigationCollection.__getitem__, itervalues", "pyslet/pyslet/odata2/csdl.py: DictionaryLike.__contains__"]}
{"id": "C112", "title": "A media stream belongs to the entity it was given to", "statement": "Reading the stream of an entity gives the type and all bytes last written to it; a new entity has an empty stream whatever was stored under its key before; deleting an entity deletes its stream; no other stream changes.", "quantifier": "all histories of insertions, updates, deletions and stream writes", "why_tests_cant": "A stream left behind shows only in a history that uses its key again.", "anchors": ["pyslet/pyslet/odata2/memds.py: Entity.SetStreamFromGenerator, GetStreamGenerator, InMemoryEntityStore.UpdateEntityStream, ReadStream, DeleteEntity"]}
{"id": "C113", "title": "Navigation in both directions agrees", "statement": "At every moment, an entity lists another through a navigation property exactly if the other lists it through the property in the opposite direction.", "quantifier": "all containers that can be loaded, all histories of insertions, updates, deletions, linking, unlinking and replacing, whether they succeed or fail, also with objects of deleted entities", "why_tests_cant": "two indexes are maintained by six operations, also along failures; a test sees a few histories", "anchors": ["pyslet/pyslet/odata2/memds.py: InMemoryAssociationIndex", "pyslet/pyslet/odata2/memds.py: NavigationCollection"]}
{"id": "C114", "title": "Links lead to entities that exist", "statement": "Every entity that a navigation property lists exists, and so does the entity that lists it.", "quantifier": "all containers and all histories of operations", "why_tests_cant": "depends on every deletion hook running for every association in every history", "anchors": ["pyslet/pyslet/odata2/memds.py: InMemoryEntityStore.DeleteEntity", "pyslet/pyslet/odata2/memds.py: NavigationCollection"]}
{"id": "C115", "title": "The multiplicity of an association is not exceeded", "statement": "An end of an association declared with multiplicity 1 or 0..1 never has more than one entity for each entity at the other end.", "quantifier": "all containers, all associations and all histories of operations", "why_tests_cant": "every operation that adds a link must check both ends; a test checks particular calls", "anchors": ["pyslet/pyslet/odata2/memds.py: NavigationCollection.__setitem__", "pyslet/pyslet/odata2/memds.py: NavigationCollection.Replace"]}
{"id": "C116", "title": "Required links are there", "statement": "Every entity has a link, to an entity that exists, for each association whose other end has multiplicity 1.", "quantifier": "all containers, all histories of operations, including nested insertions of any depth", "why_tests_cant": "nested insertions, replacements and cascading deletions together must keep it; only induction over histories settles it", "anchors": ["pyslet/pyslet/odata2/memds.py: EntityCollection.InsertEntity", "pyslet/pyslet/odata2/csdl.py: Entity.CheckNavigationConstraints", "pyslet/pyslet/odata2/csdl.py: DeferredValue.UpdateBindings"]}
{"id": "C117", "title": "Deleting an entity deletes what requires it and nothing else", "statement": "Deleting an entity that exists succeeds and comes to an end; it removes the entity, every entity that requires one that is removed, and no other; links among the remaining entities are unchanged.", "quantifier": "all containers, reachable states and entities, also with circular requirements", "why_tests_cant": "the cascade is recursive over arbitrary graphs of entities", "anchors": ["pyslet/pyslet/odata2/memds.py: EntityCollection.__delitem__", "pyslet/pyslet/odata2/memds.py: InMemoryAssociationIndex.DeleteHook"]}
{"id": "C118", "title": "An operation that fails has no effect", "statement": "If an operation on entities or links reports an error, entities and links are as before.", "quantifier": "all containers, reachable states and operations", "why_tests_cant": "failures at any point of a nested operation would have to be tried", "anchors": ["pyslet/pyslet/odata2/memds.py: EntityCollection.InsertEntity", "pyslet/pyslet/odata2/memds.py: EntityCollection.__delitem__", "pyslet/pyslet/odata2/memds.py: NavigationCollection"]}
{"id": "C119", "title": "Threads that link entities do not interfere", "statement": "If several threads link entities at the same time, the result is one that linking one after the other could give: multiplicities are observed, both directions agree and reported links are there.", "quantifier": "all schedules of any number of threads", "why_tests_cant": "schedules cannot be enumerated by tests", "anchors": ["pyslet/pyslet/odata2/memds.py: NavigationCollection.__setitem__", "pyslet/pyslet/odata2/memds.py: InMemoryAssociationIndex.AddLink"]}
{"id": "C120", "title": "Linking, unlinking and replacing do what they say", "statement": "Linking adds one link, unlinking removes one, and replacing leaves exactly one at the property, each in both directions; no other link and no entity changes.", "quantifier": "all containers, reachable states, ends and keys", "why_tests_cant": "that nothing else changes is a statement about all other entities and associations", "anchors": ["pyslet/pyslet/odata2/memds.py: NavigationCollection.__setitem__", "pyslet/pyslet/odata2/memds.py: NavigationCollection.__delitem__", "pyslet/pyslet/odata2/memds.py: NavigationCollection.Replace"]}
{"id": "C121", "title": "An entity is linked to what was bound to it", "statement": "After an entity has been inserted or updated successfully, its navigation properties list every entity that was bound to them, whether by key, by object or as a new entity with bindings of its own.", "quantifier": "all containers, reachable states and bindings of any depth", "why_tests_cant": "nested insertions and later bindings may undo earlier ones; all combinations cannot be tried", "anchors": ["pyslet/pyslet/odata2/csdl.py: DeferredValue.UpdateBindings", "pyslet/pyslet/odata2/csdl.py: EntityCollection.UpdateBindings", "pyslet/pyslet/odata2/memds.py: NavigationCollection.InsertEntity"]}
{"id": "C122", "title": "Options mean the same wherever they are given, and everything else is an input", "statement": "For every command line: the inputs are the arguments that are not options, in their order; each option listed by --help is in effect exactly if it is given, in any position, any number of times and in letters of either case; of the options with a value the last one counts; --version only displays the version.", "quantifier": "all lists of arguments, all file systems and replies", "why_tests_cant": "a test tries a few orders of a few options; the property is about all lists of arguments", "anchors": ["QTIMigration/migrate.py: argument loop, HELP_TEXT", "QTIMigration/lib/imsqtiv1.py: QTIParserV1Options"]}
{"id": "C123", "title": "An existing directory is not written to without consent", "statement": "The output directory is the last one named by --cpout=. If something that is not a directory is there then nothing is written. If a directory is there then a package is written to it only if the question whether to overwrite it was answered by yes.", "quantifier": "all lists of arguments, all file systems, all replies", "why_tests_cant": "consent has to hold for every combination of repeated options, replies and existing files", "anchors": ["QTIMigration/migrate.py: --cpout=", "QTIMigration/lib/gui.py: ConvertMe", "QTIMigration/lib/imsqtiv1.py: QTIParserV1.DumpCP"]}
{"id": "C124", "title": "Every XML file below the inputs is converted once, and nothing else", "statement": "For all inputs, the files that are parsed are exactly the inputs whose names end in .xml and the files with such names at any depth below inputs that are directories, each once, in the order of the listings.", "quantifier": "all lists of inputs, all directory trees of any depth and width", "why_tests_cant": "trees of any depth; tests have a few levels", "anchors": ["QTIMigration/lib/imsqtiv1.py: QTIParserV1.ProcessFiles"]}
{"id": "C125", "title": "A file that cannot be converted does not spoil the others", "statement": "If one of the inputs cannot be read or converted then this is reported, all others are converted as without it and the package is written; the exit status tells whether everything was converted.", "quantifier": "all lists of inputs, all contents, all positions of the failing file among them", "why_tests_cant": "the failing file may be anywhere and fail at any point", "anchors": ["QTIMigration/lib/imsqtiv1.py: QTIParserV1.ProcessFiles, Parse, DumpCP", "QTIMigration/migrate.py: sys.exit"]}
{"id": "C126", "title": "The options of a conversion do not affect later ones", "statement": "When several conversions are done in one process (by the window), each recognises the elements that it would recognise in a process of its own.", "quantifier": "all sequences of conversions with all options", "why_tests_cant": "depends on the history of the process", "anchors": ["QTIMigration/lib/imsqtiv1.py: QTIParserV1.__init__, QTIASI_ELEMENTS", "QTIMigration/lib/gui.py: ProcessFiles"]}
{"id": "C127", "title": "The comment of a file describes the item or the package", "statement": "The comment of the root element of a file becomes a description of the item if the file has exactly one item, and of the package otherwise, and changes nothing else, whatever other files are converted. No comment is lost.", "quantifier": "all sequences of files with any numbers of items and comments", "why_tests_cant": "all numbers and orders of items, comments and files", "anchors": ["QTIMigration/lib/imsqtiv1.py: QuesTestInterop, QTIComment"]}
{"id": "C128", "title": "Reading a header value comes to an end", "statement": "For every text, splitting it into words and parsing any kind of header value from it returns a value or raises an exception; it never runs for ever.", "quantifier": "all texts, both ways of treating spaces, all kinds of header value", "why_tests_cant": "texts of any length with any character anywhere; a test that hangs is not a test", "anchors": ["pyslet/pyslet/rfc2616_core.py: WordParser.__init__, OctetParser, ParseLWS, ParseToken"]}
{"id": "C129", "title": "Quoted text is read back", "statement": "Text that is put in quotes is one word of the header value and decodes to the text, whatever it contains and whatever follows; text that is put in quotes only if needed is one word with that text.", "quantifier": "all texts, all continuations of the header value", "why_tests_cant": "all texts, with quotes, backslashes and controls in any position", "anchors": ["pyslet/pyslet/rfc2616_core.py: QuoteString, DecodeQuotedString, WordParser"]}
{"id": "C130", "title": "A media type is read back from its text", "statement": "For all media types with any parameters, formatting a media type and parsing the text gives a media type that compares equal.", "quantifier": "all types, subtypes and lists of parameters with any values", "why_tests_cant": "parameters of any number and any text", "anchors": ["pyslet/pyslet/rfc2616_params.py: MediaType, ParameterParser.RequireMediaType, ParseParameters, FormatParameters"]}
{"id": "C131", "title": "An Accept header is read back from its text", "statement": "For all lists of ranges with qualities and extensions, formatting the list and parsing it gives the same list in the same order; a quality with up to three digits is read exactly and never exceeds 1.", "quantifier": "all lists of items of any length, all qualities", "why_tests_cant": "lists and parameters of any length", "anchors": ["pyslet/pyslet/rfc2616_headers.py: AcceptList, AcceptItem, MediaRange, HeaderParser.RequireAcceptList", "pyslet/pyslet/rfc2616_params.py: ParameterParser.ParseQualityValue"]}
{"id": "C132", "title": "Content negotiation selects the best acceptable media type", "statement": "The media type that is selected is the first of the best of those on offer, where the quality of each is that of the most specific range of the header that applies to it; none is selected only if none is acceptable; the order of the header does not matter.", "quantifier": "all headers, in any order, all lists of media types on offer", "why_tests_cant": "all headers and all offers", "anchors": ["pyslet/pyslet/rfc2616_headers.py: AcceptList.SelectType, AcceptItem.__cmp__, MediaRange.MatchMediaType, __cmp__", "pyslet/pyslet/odata2/server.py: ContentNegotiation"]}
{"id": "C133", "title": "Negotiation of character sets, encodings and languages selects the best", "statement": "The token, character set, encoding or language that is selected is the first of the best of those on offer, by the item that names it or the longest range that is a prefix of it, with the defaults of RFC 2616 for those that are not named; none is selected only if none is acceptable.", "quantifier": "all headers, all lists of tokens and languages on offer", "why_tests_cant": "all headers and all offers", "anchors": ["pyslet/pyslet/rfc2616_headers.py: AcceptTokenList, AcceptCharsetList, AcceptEncodingList, AcceptLanguageList", "pyslet/pyslet/rfc2616_params.py: LanguageTag.PartialMatch"]}
{"id": "C134", "title": "Products and versions are put in order", "statement": "The comparison of product tokens is an order on all product tokens; dotted numbers are compared as numbers, a version with a modifier comes before the same version without and before all that continue it; versions of HTTP are ordered by major and minor number; only the same versions are equal.", "quantifier": "all product tokens, all versions", "why_tests_cant": "transitivity and antisymmetry concern all triples of values", "anchors": ["pyslet/pyslet/rfc2616_params.py: ProductToken.Explode, __cmp__, HTTPVersion.__cmp__"]}
{"id": "C135", "title": "Versions, products, language tags, entity tags and byte ranges are read back", "statement": "Formatting any of them and parsing the text gives it back; a byte range has as many bytes as it says and is valid exactly if all lie within the total; text that is not a value is a syntax error.", "quantifier": "all versions, products, lists of products, language tags, entity tags of any octets, byte ranges", "why_tests_cant": "values of any length", "anchors": ["pyslet/pyslet/rfc2616_params.py: HTTPVersion, ProductToken, LanguageTag, EntityTag", "pyslet/pyslet/rfc2616_headers.py: ContentRange"]}
{"id": "C136", "title": "Equal values are the same dictionary key", "statement": "Media types, products, versions, language tags and entity tags that compare equal have the same hash, so that what is stored under one is found under the other.", "quantifier": "all pairs of values", "why_tests_cant": "all pairs of values", "anchors": ["pyslet/pyslet/rfc2616_params.py: MediaType.__hash__, ProductToken.__hash__, LanguageTag.__hash__, EntityTag.__hash__, HTTPVersion.__hash__"]}
{"id": "C137", "title": "A date in a header is read back", "statement": "For all dates and times, the text written for a header denotes that instant, with the right day of the week, and is read back; so are the two other formats of RFC 2616. What is read is always a date of the calendar. A date with the name of another day, or one that does not exist, is a syntax error.", "quantifier": "all dates from year 1 to 9999 with all times and zones, all texts", "why_tests_cant": "all dates, all texts", "anchors": ["pyslet/pyslet/rfc2616_params.py: FullDate.__str__, FromHTTPString, ParameterParser.RequireFullDate"]}
{"id": "C138", "title": "A malformed header value is reported as a syntax error", "statement": "Every reader of header values either returns a value or raises SyntaxError, whatever the text; content negotiation treats a malformed Accept header as missing.", "quantifier": "all texts, all kinds of header values", "why_tests_cant": "all texts", "anchors": ["pyslet/pyslet/rfc2616_core.py: WordParser, ParseComment, ParseQuotedString", "pyslet/pyslet/rfc2616_params.py: ParseHTTPVersion, RequireFullDate", "pyslet/pyslet/rfc2616_headers.py: HeaderParser", "pyslet/pyslet/odata2/server.py: ContentNegotiation"]}
{"id": "C139", "title": "URI literals are read as the values they stand for", "statement": "Every literal of the OData URI conventions (null, booleans, integers, decimals, doubles and singles with their suffixes, strings with doubled quotes, binary data, GUIDs, dates, times and dates with a zone) is read as exactly the value it stands for, and no text stands for two values.", "quantifier": "all texts of literals: any digits, any string, any date of the calendar including leap days, leap seconds and 24:00:00, any case of the names", "why_tests_cant": "the space of texts is infinite and the readers of the forms overlap (datetime/datetimeoffset, -inf/-1, nan/names): a test shows some texts only", "anchors": ["pyslet/pyslet/odata2/core.py: ParseURILiteral, Parser.ParseURILiteral, ParseStringURILiteral", "pyslet/pyslet/odata2/csdl.py: ParseNumericLiteral, SetFromNumericLiteral, ParseDateTimeLiteral, ParseTimeLiteral, ParseBinaryLiteral"]}
{"id": "C140", "title": "Literals survive being written and read", "statement": "The text written for a literal value in a filter is read back as that value.", "quantifier": "all values of all simple types in their range", "why_tests_cant": "the ranges are far too large to enumerate, and escaping must be right for every string", "anchors": ["pyslet/pyslet/odata2/core.py: LiteralExpression.__unicode__, ParseURILiteral", "pyslet/pyslet/odata2/csdl.py: SimpleValue.__unicode__"]}
{"id": "C141", "title": "Filter expressions mean what precedence says", "statement": "A filter expression is read as the tree that the precedence of its operators gives: member access, then sign and not, then mul/div/mod, add/sub, relations, equality, and, or; equal operators group to the left; brackets override; white space around operators does not matter.", "quantifier": "all expressions of any size and nesting, with any white space", "why_tests_cant": "operator precedence interacts over arbitrarily long and deep expressions; the parser keeps a stack whose depth no test bounds", "anchors": ["pyslet/pyslet/odata2/core.py: Parser.ParseCommonExpression, ParseMethodCallExpression, ParseCastLike, Operator.Category"]}
{"id": "C142", "title": "Expressions survive being written and read", "statement": "The text written for an expression tree is read back as the same tree: brackets are written wherever they are needed.", "quantifier": "all expression trees of any depth", "why_tests_cant": "where brackets may be omitted depends on the pair of operators and on the side, at every depth", "anchors": ["pyslet/pyslet/odata2/core.py: UnaryExpression.__unicode__, BinaryExpression.__unicode__, CallExpression.__unicode__, Parser.ParseCommonExpression"]}
{"id": "C143", "title": "Bad expressions raise ValueError and reading ends", "statement": "Reading any text as a filter expression ends, and the only exception it raises is ValueError.", "quantifier": "all texts whatsoever", "why_tests_cant": "termination and the absence of other exceptions are statements about every text", "anchors": ["pyslet/pyslet/odata2/core.py: CommonExpression.FromString, Parser.ParseCommonExpression"]}
{"id": "C144", "title": "Operands are promoted to a common type", "statement": "Two operands have a common type if they are of the same type, one is null, or both are numeric, in which case it is the larger of Byte, Int16, Int32, Int64, Decimal, Single, Double; otherwise EvaluationError is raised. Order and grouping do not matter, null has no influence, and promotion never fails and keeps the exact number unless the common type is a floating-point type.", "quantifier": "all pairs and triples of types, all values in their range", "why_tests_cant": "the values are unbounded in number, and exactness must hold at the edges of each range", "anchors": ["pyslet/pyslet/odata2/core.py: PromoteTypes, BinaryExpression.PromoteOperands", "pyslet/pyslet/odata2/csdl.py: SimpleValue.SimpleCast, SimpleValue.Cast"]}
{"id": "C145", "title": "Integer arithmetic is exact or refused", "statement": "The sum, difference, product, quotient (cut towards zero), remainder and negative of integers in an expression is the exact one if it fits the common type, and ValueError is raised if not; division by zero raises EvaluationError.", "quantifier": "all expressions, contexts and integers of all integer types", "why_tests_cant": "the ranges of 32 and 64 bits cannot be enumerated, and division goes through floating-point numbers where only some operands lose digits", "anchors": ["pyslet/pyslet/odata2/core.py: EvaluateAdd, EvaluateSub, EvaluateMul, EvaluateDiv, EvaluateMod, EvaluateNegate", "pyslet/pyslet/odata2/csdl.py: Int32Value.SetFromValue, Int64Value.SetFromValue"]}
{"id": "C146", "title": "Comparisons agree with each other and with the values", "statement": "ne is the opposite of eq, eq is symmetric, gt and ge are lt and le mirrored; numbers are compared by their exact values, strings like words in a dictionary, points of time by calendar and clock; null equals only null and is neither smaller nor larger than anything.", "quantifier": "all expressions and all pairs of values", "why_tests_cant": "laws over all pairs of values of all pairs of types", "anchors": ["pyslet/pyslet/odata2/core.py: EvaluateEq, EvaluateNe, EvaluateRelation", "pyslet/pyslet/iso8601.py: TimePoint.__cmp__"]}
{"id": "C147", "title": "and, or and not follow two-valued logic", "statement": "and, or and not of truth values are the logical ones; with a null for an operand and and or are false and not is null; other operands raise EvaluationError.", "quantifier": "all expressions and contexts", "why_tests_cant": "operands are arbitrary expressions of any type", "anchors": ["pyslet/pyslet/odata2/core.py: EvaluateAnd, EvaluateOr, EvaluateNot"]}
{"id": "C148", "title": "String and date methods return what they say", "statement": "startswith, endswith and substringof tell whether a text is the beginning, the end or a part; indexof is the first position or -1; replace cuts at every occurrence; substring, concat, length and trim cut and join texts; year to second take a date apart; null arguments give null.", "quantifier": "all strings and dates", "why_tests_cant": "strings are unbounded, overlapping occurrences matter", "anchors": ["pyslet/pyslet/odata2/core.py: CallExpression.EvalMethod"]}
{"id": "C149", "title": "Rounding is to the nearest integer", "statement": "round of a Decimal is the nearest integer, halves away from zero, of a Double the nearest integer, halves to the even one; floor is the largest integer not above, ceiling the smallest not below; integers are unchanged.", "quantifier": "all numbers in range", "why_tests_cant": "rational numbers cannot be enumerated", "anchors": ["pyslet/pyslet/odata2/core.py: EvaluateRound, EvaluateFloor, EvaluateCeiling"]}
{"id": "C150", "title": "Evaluating an expression raises only EvaluationError", "statement": "A well-formed expression evaluated for an entity has a value that fits its type or raises EvaluationError.", "quantifier": "all well-formed expressions of any size, all contexts", "why_tests_cant": "errors can arise in any subexpression, for any values", "anchors": ["pyslet/pyslet/odata2/core.py: CommonExpression.Evaluate"]}
{"id": "C151", "title": "The value of an expression depends on the named properties only", "statement": "Two entities (or complex values) that agree on the properties an expression names give it the same value, unless it has a cast or isof of the entity itself; an expression that names no property is constant.", "quantifier": "all expressions, all pairs of contexts", "why_tests_cant": "a statement about pairs of contexts and expressions of any size", "anchors": ["pyslet/pyslet/odata2/core.py: PropertyExpression.Evaluate, BinaryExpression.Evaluate, CallExpression.Evaluate"]}
{"id": "C152", "title": "Paths of $expand and $select are read as the tree of these paths", "statement": "A comma-separated list of paths of names (for $select with white space and a star at the end of a path) is read as nested dictionaries that have exactly these paths and their beginnings; the order of the paths and repeated ones make no difference; every other text raises ValueError.", "quantifier": "all texts, any number of paths of any depth, all tables of Unicode letters", "why_tests_cant": "texts are unbounded and nested merging depends on every earlier path", "anchors": ["pyslet/pyslet/odata2/core.py: Parser.ParseExpandOption, Parser.ParseSelectOption, ParseStarOrIdentifier"]}
{"id": "C153", "title": "$expand and $select are written canonically and read back", "statement": "What is written for nested dictionaries is read back as the same paths, and two dictionaries are written alike exactly if they have the same paths.", "quantifier": "all nested dictionaries of any size and depth", "why_tests_cant": "dictionaries keep their names in an arbitrary order, and nesting is unbounded", "anchors": ["pyslet/pyslet/odata2/core.py: ODataURI.FormatExpand, ODataURI.FormatSelect, _FormatExpandList"]}
{"id": "C154", "title": "Rules of $orderby are read as written", "statement": "A comma-separated list of expressions each followed by asc, desc or nothing is read as these expressions with these directions, and nothing else is accepted; rules that are written are read back; reading ends and raises only ValueError.", "quantifier": "all lists of rules of any length, expressions of any size, all texts for errors", "why_tests_cant": "expressions are recursive and lists unbounded", "anchors": ["pyslet/pyslet/odata2/core.py: Parser.ParseOrderbyOption, CommonExpression.OrderByFromString, CommonExpression.OrderByToString"]}
{"id": "C155", "title": "A resource path is accepted exactly if it has one of the forms of OData", "statement": "A path of an OData URI is accepted exactly if it consists of names with optional keys, possibly followed by one path option, or by $links and one more name, with $metadata and $batch only for the service itself and $links, $count and $value only after a resource; and then it is read as these names and keys. Any other order of names and options raises InvalidPathOption.", "quantifier": "all paths of any number of segments of URI characters, any keys", "why_tests_cant": "paths have any number of segments, options can be anywhere in them", "anchors": ["pyslet/pyslet/odata2/core.py: ODataURI.__init__, PathOption"]}
{"id": "C156", "title": "What is below the service root is read, and nothing else", "statement": "The path below the prefix of the service is read as if there were no prefix; scheme, host and fragment make no difference; a URI that is not below the prefix is not unpacked.", "quantifier": "all prefixes, paths, queries and well-formed URIs", "why_tests_cant": "URIs and prefixes are arbitrary texts", "anchors": ["pyslet/pyslet/odata2/core.py: ODataURI.__init__"]}
{"id": "C157", "title": "Names and keys of a segment are read as written", "statement": "A segment is read as the name that it stands for after undoing escapes and UTF-8, with no key, no keys in empty brackets, the literal in brackets, or the dictionary of the named literals, whatever characters the literals have.", "quantifier": "all names of Unicode characters in any escaping, all literals, any number of named keys", "why_tests_cant": "names and literals have any characters, keys any number of parts", "anchors": ["pyslet/pyslet/odata2/core.py: ODataURI.SplitSegment, ParseURILiteral"]}
{"id": "C158", "title": "The key of an entity in a URI is read back", "statement": "What FormatKeyDict writes for a key is read as the same key.", "quantifier": "all keys of any number of parts and all values", "why_tests_cant": "values have any characters", "anchors": ["pyslet/pyslet/odata2/core.py: ODataURI.FormatKeyDict, ODataURI.FormatLiteral, ODataURI.SplitSegment"]}
{"id": "C159", "title": "System query options are read as written, in any order and escaping", "statement": "A query of system query options is read as these options with the values of their texts after undoing escapes and UTF-8, whatever their order and escaping; what FormatSysQueryOptions writes is read back; $skip and $top have exactly the numbers in decimal digits as values.", "quantifier": "all lists of distinct options, all value texts of Unicode characters, all escapings", "why_tests_cant": "values have any characters and options any order", "anchors": ["pyslet/pyslet/odata2/core.py: ODataURI.ParseSystemQueryOption, ODataURI.FormatSysQueryOptions, ODataURI.__init__"]}
{"id": "C160", "title": "Only options that go with the path are accepted", "statement": "A URI with $links, $count, $metadata or $batch is accepted exactly if its system query options are among those OData allows for it, which differ for counting a set and a single thing; otherwise InvalidSystemQueryOption is raised.", "quantifier": "all URIs whose path and query can be read", "why_tests_cant": "any combination of options and paths", "anchors": ["pyslet/pyslet/odata2/core.py: ODataURI.ValidateSystemQueryOptions, SupportedSystemQueryOptions"]}
{"id": "C161", "title": "Reading a URI ends and raises only documented errors", "statement": "For every path and query the constructor returns an ODataURI or raises one of the errors derived from ServerError.", "quantifier": "all prefixes, paths and queries", "why_tests_cant": "URIs come from clients and have any characters", "anchors": ["pyslet/pyslet/odata2/core.py: ODataURI, InvalidPathOption, InvalidSystemQueryOption; pyslet/pyslet/rfc2616_headers.py: AcceptList.FromString"]}
{"id": "C162", "title": "Parameters of service operations are read as written", "statement": "GetParamValue returns the literal that the query gives the parameter after undoing escapes, the last one if there are several, and raises KeyError if there is none.", "quantifier": "all queries of any number of parts, all names and literals in any escaping", "why_tests_cant": "queries have any parts in any order", "anchors": ["pyslet/pyslet/odata2/core.py: ODataURI.GetParamValue"]}
{"id": "C163", "title": "A path of an OData request leads to one resource or fails with a definite status", "statement": "Each path of segments either leads to exactly one resource (the entity set, the entity with the keys, the value of a property, the entity or the entities a navigation property leads to, the part of a complex value) or is answered with a definite status: 404 where nothing of that name or key exists, 400 where the path goes on after what has no parts or has keys where nothing is picked, 403 where several entities stand where one must be.", "quantifier": "all data models and stores, all paths", "why_tests_cant": "any model, any depth of navigation, any position of the first failing segment", "anchors": ["pyslet/pyslet/odata2/server.py: Server.GetResource, Server.HandleRequest", "pyslet/pyslet/odata2/csdl.py: DeferredValue.GetEntity, EntitySet.GetKey"]}
{"id": "C164", "title": "Keys of an OData path pick the entity with these values", "statement": "The keys of a segment pick an entity by the values of all the key properties, in whatever order they are given, or by one value without a name if there is one key property; keys with other names pick nothing.", "quantifier": "all entity types, all key predicates", "why_tests_cant": "any number and order of keys", "anchors": ["pyslet/pyslet/odata2/csdl.py: EntitySet.GetKey", "pyslet/pyslet/odata2/server.py: Server.GetResource"]}
{"id": "C165", "title": "Query options are tested against the resource that is found", "statement": "A request with a system query option that OData does not allow for the resource it leads to is refused; one whose options are all allowed is not refused for them.", "quantifier": "all resources, all path options, all sets of query options", "why_tests_cant": "every combination of a kind of resource, path option and query option", "anchors": ["pyslet/pyslet/odata2/server.py: Server.GetResource", "pyslet/pyslet/odata2/core.py: ODataURI.ValidateSystemQueryOptions"]}
{"id": "C166", "title": "Reading changes nothing, and a server for reading only changes nothing", "statement": "A request with method GET or HEAD leaves the store as it was, and so does every request to a read-only server.", "quantifier": "all stores, all requests, all methods", "why_tests_cant": "every request there is, whatever the store does", "anchors": ["pyslet/pyslet/odata2/server.py: Server.__call__, Server.HandleRequest, ReadOnlyServer.HandleRequest"]}
{"id": "C167", "title": "A request that is refused changes nothing", "statement": "If the store undoes its operations when they fail, then a request that is answered with a status of 400 or more leaves the store as it was.", "quantifier": "all stores with atomic operations, all requests", "why_tests_cant": "every request and every failure of the store", "anchors": ["pyslet/pyslet/odata2/server.py: Server.__call__, Server.HandleRequest"]}
{"id": "C168", "title": "$count is the number of entities", "statement": "The $count of a collection is the number of entities that the request without $count would show, that of an entity is 1.", "quantifier": "all stores, all collections, all options", "why_tests_cant": "every collection and filter", "anchors": ["pyslet/pyslet/odata2/server.py: Server.HandleRequest"]}
{"id": "C169", "title": "A method that a resource does not have is refused", "statement": "A request with a method that the resource does not have is refused and changes nothing.", "quantifier": "all resources, all methods", "why_tests_cant": "every text can be a method", "anchors": ["pyslet/pyslet/odata2/server.py: Server.HandleRequest, ReadOnlyServer.HandleRequest"]}
{"id": "C170", "title": "Every OData request is answered", "statement": "The application returns a response to every request; no exception leaves it, and it always comes to an end.", "quantifier": "all requests with all headers, all stores", "why_tests_cant": "every text can be a header or an address", "anchors": ["pyslet/pyslet/odata2/server.py: Server.__call__, Server.ODataError, Server.ContentNegotiation"]}
{"id": "C171", "title": "Errors of the client are not reported as errors of the server", "statement": "A request that is itself at fault is answered with a status of 4xx, never with 500.", "quantifier": "all requests, all stores that raise only documented exceptions", "why_tests_cant": "every fault that a request can have", "anchors": ["pyslet/pyslet/odata2/server.py: Server.__call__, Server.HandleRequest"]}
{"id": "C172", "title": "Null values and missing entities are not found", "statement": "The raw value of a null, and the entity or link of a navigation property that leads to none, are answered with 404; the null itself is shown, a link can be added where none is, and a property is set to null by deletion if that is allowed.", "quantifier": "all paths that lead to nulls or to no entity, all stores", "why_tests_cant": "every model and state of the store", "anchors": ["pyslet/pyslet/odata2/server.py: Server.HandleRequest, Server.GetResource"]}
{"id": "C173", "title": "A resource is shown in the best acceptable media type", "statement": "A request to read is answered in the first of the best of the media types in which the resource is offered, by $format if that is given, otherwise by the Accept header, otherwise by a default that accepts everything; if none is acceptable the answer is 406.", "quantifier": "all resources, all Accept headers and $format options", "why_tests_cant": "every list of ranges with qualities", "anchors": ["pyslet/pyslet/odata2/server.py: Server.ContentNegotiation, Server.ReturnEntity, Server.ReturnEntityCollection, Server.ReturnValue"]}
{"id": "C174", "title": "Versions of the protocol are negotiated", "statement": "A request of a version later than 2.0 is refused with 400; otherwise the answer has version 2 if the client understands that and 1 if not.", "quantifier": "all version headers", "why_tests_cant": "every version number and name of a program", "anchors": ["pyslet/pyslet/odata2/server.py: Server.CheckCapabilityNegotiation", "pyslet/pyslet/odata2/core.py: ParseDataServiceVersion, ParseMaxDataServiceVersion"]}
{"id": "C175", "title": "The library's migration keeps the order of response conditions", "statement": "Migrating a version 1 item with the library gives response processing that, in every state, does what the original response conditions do when taken in order, stopping after the first one that holds and is not marked to continue.", "quantifier": "all sequences of response conditions, all declarations, all interpretations of tests and actions, all states", "why_tests_cant": "The nesting of if, else-if and else depends on the whole sequence of continue marks before a condition; no finite set of sequences covers it.", "anchors": ["pyslet/pyslet/qtiv1/item.py: ResProcessing.MigrateV2, RespCondition.MigrateV2Rule"]}
{"id": "C176", "title": "The library's migration keeps the meaning of conditions", "statement": "The condition built for a conditionvar is true for exactly the candidates' answers for which the original condition holds.", "quantifier": "all conditions built from the tests of version 1, all declarations of responses, all answers", "why_tests_cant": "The tests differ by cardinality, base type, index and case; and/or/not nest without bound.", "anchors": ["pyslet/pyslet/qtiv1/common.py: ConditionVar.MigrateV2Expression, VarEqual, VarInequality, VarSubset, VarSubString, Unanswered, ExpressionMixin"]}
{"id": "C177", "title": "The library's migration keeps the arithmetic of setvar", "statement": "Each action of setvar leaves in the outcome the result of that action on its previous value and the operand, and changes nothing else.", "quantifier": "all actions, operands, outcomes and sessions", "why_tests_cant": "The operand is any text that denotes a number and the previous value any number.", "anchors": ["pyslet/pyslet/qtiv1/common.py: SetVar.MigrateV2Rule"]}
{"id": "C178", "title": "Items migrated by the library score as the originals do", "statement": "After response processing of the migrated item every outcome has the value that the version 1 item gives it for the same answers, within its limits, and the feedback shown is the same.", "quantifier": "all items, answers and initial outcomes", "why_tests_cant": "The result is that of a whole program run on arbitrary answers.", "anchors": ["pyslet/pyslet/qtiv1/item.py: ResProcessing.MigrateV2, RespCondition.MigrateV2Rule", "pyslet/pyslet/qtiv1/common.py: SetVar, DisplayFeedback, DecVar"]}
{"id": "C179", "title": "The library's migration shows the feedback named", "statement": "Running the rule for displayfeedback adds the identifier of the migrated feedback of that name to the outcome FEEDBACK and keeps what was there.", "quantifier": "all names of feedback, all sessions", "why_tests_cant": "Names are arbitrary text; identifiers must be made from them in two places in the same way.", "anchors": ["pyslet/pyslet/qtiv1/common.py: DisplayFeedback.MigrateV2Rule", "pyslet/pyslet/qtiv1/item.py: ItemFeedback.MigrateV2"]}
{"id": "C180", "title": "The library's migration declares outcomes as the item does", "statement": "Every outcome of the item is declared with the base type for its type, its default, its limits and its interpretations, and no other declaration is changed.", "quantifier": "all declarations of variables and interpretations, all previous declarations", "why_tests_cant": "Names are arbitrary text and their identifiers may coincide; interpretations accumulate.", "anchors": ["pyslet/pyslet/qtiv1/common.py: DecVar.MigrateV2, InterpretVar.MigrateV2", "pyslet/pyslet/qtiv1/core.py: MigrateV2VarType"]}
{"id": "C181", "title": "The library's migration keeps the regions of areas", "statement": "The migrated area covers exactly the pixels of the original one, read from any text with any separators.", "quantifier": "all texts, shapes and pixels", "why_tests_cant": "Coordinates and separators are unbounded; regions are sets of pixels.", "anchors": ["pyslet/pyslet/qtiv1/core.py: MigrateV2AreaCoords"]}
{"id": "C182", "title": "The library's migration shows content to the same people", "statement": "What is for a role in version 1 is for that role in version 2, and what is for everyone is for all roles; letter case and white space around the name make no difference.", "quantifier": "all texts of the attribute view", "why_tests_cant": "The attribute is arbitrary text.", "anchors": ["pyslet/pyslet/qtiv1/core.py: View, DecodeView, MigrateV2View"]}
{"id": "C183", "title": "Every blank of a migrated response has its own response", "statement": "A response that becomes several interactions gets, always and in finite time, a different response identifier for each, with the cardinality and base type of the original; response processing first puts their answers together under the original identifier.", "quantifier": "all declarations, names, numbers of interactions, cardinalities and answers", "why_tests_cant": "Names already in use and the number of interactions are unbounded; the loop that looks for a name must end.", "anchors": ["pyslet/pyslet/qtiv1/item.py: ResponseThing.MigrateV2Content, ResProcessing.MigrateV2"]}
{"id": "C184", "title": "A question that cannot be migrated does not lose the others", "statement": "Migrating a file gives every item in it that can be migrated, in order.", "quantifier": "all files and all items", "why_tests_cant": "A file has any number of items of either kind.", "anchors": ["pyslet/pyslet/imsqtiv1p2p1.py: QuesTestInterop.MigrateV2", "pyslet/pyslet/qtiv1/item.py: Item.MigrateV2"]}
{"id": "C185", "title": "Attributes left out have their default meaning in the library's migration", "statement": "A response without cardinality is migrated as one of cardinality Single and an area without shape as an ellipse, as the binding says.", "quantifier": "all questions and areas with attributes left out", "why_tests_cant": "Defaults interact with every other attribute.", "anchors": ["pyslet/pyslet/qtiv1/core.py: RCardinality, Area, MigrateV2Cardinality, MigrateV2AreaCoords", "pyslet/pyslet/qtiv1/item.py: ResponseThing, ResponseLabel"]}
{"id": "C186", "title": "Every well-formed document is read", "statement": "Every well-formed XML document without a document type declaration is read, and what is read are exactly the elements, attributes and characters that the XML recommendation says are to be reported for it.", "quantifier": "all well-formed documents: any nesting, names, attributes, references, comments, processing instructions, CDATA sections and line ends", "why_tests_cant": "The grammar is recursive and each construct can follow any other.", "anchors": ["pyslet/pyslet/xml20081126/parser.py: XMLParser.ParseDocument, ParseElement, ParseContent, ParseSTag, ParseAttValue, ParseReference, ParsePI, ParseXMLDecl", "pyslet/pyslet/xml20081126/structures.py: Document.Read, XMLEntity.NextChar"]}
{"id": "C187", "title": "What is not well-formed is not read", "statement": "A text is read as a document only if it is a well-formed XML document, and the tree read is the one the recommendation says is to be reported.", "quantifier": "all texts", "why_tests_cant": "The texts that must be refused are all those outside the grammar.", "anchors": ["pyslet/pyslet/xml20081126/parser.py: XMLParser.ParseDocument, ParseComment, ParsePI, ParseCharData, ParseCharRef"]}
{"id": "C188", "title": "Reading a document ends", "statement": "Reading any text ends, with a document or with an error.", "quantifier": "all texts, well-formed or not", "why_tests_cant": "Whether a loop ends on every text cannot be seen from texts on which it does.", "anchors": ["pyslet/pyslet/xml20081126/parser.py: XMLParser.ParseContent, ParseCharData"]}
{"id": "C189", "title": "What is written can be read back", "statement": "Writing a document and reading what was written gives the same elements, attributes and values.", "quantifier": "all trees of elements with any names, attributes and text, both functions for escaping characters", "why_tests_cant": "Escaping must be right for every character in every place, and trees nest without bound.", "anchors": ["pyslet/pyslet/xml20081126/structures.py: Document.GenerateXML, Element.GenerateXML, Element.WriteXMLAttributes, EscapeCharData, EscapeCharData7", "pyslet/pyslet/xml20081126/parser.py: XMLParser.ParseDocument"]}
{"id": "C190", "title": "Writing changes only white space, and only where it may", "statement": "Writing keeps every character if xml:space is preserve; otherwise it keeps every element, attribute and character that is not white space, in order, and at least a space wherever there was white space between them inside an element.", "quantifier": "all trees", "why_tests_cant": "Strings may be split in any way and lie anywhere between elements; the rule looks at both neighbours.", "anchors": ["pyslet/pyslet/xml20081126/structures.py: Element.GetCanonicalChildren, CollapseSpace"]}
{"id": "C191", "title": "Escaping for ASCII writes only ASCII", "statement": "The text written for data and for attribute values when escaping for ASCII consists of ASCII characters, and it is read back as the original.", "quantifier": "all strings", "why_tests_cant": "Every code point must be covered.", "anchors": ["pyslet/pyslet/xml20081126/structures.py: EscapeCharData7"]}
{"id": "C192", "title": "CDATA sections that are written can be read", "statement": "The text written for data as a CDATA section is read back as that data.", "quantifier": "all strings and whatever follows the section", "why_tests_cant": "The data may contain the end of a section any number of times.", "anchors": ["pyslet/pyslet/xml20081126/structures.py: EscapeCDSect", "pyslet/pyslet/xml20081126/parser.py: XMLParser.ParseContent"]}
{"id": "C193", "title": "The value of an element is the value set", "statement": "The value of an element is the value that was set, whatever it held before; the value of an element that holds only text is that text; and child elements are left out when that is asked for.", "quantifier": "all values and all children", "why_tests_cant": "Values and children are arbitrary.", "anchors": ["pyslet/pyslet/xml20081126/structures.py: Element.GetValue, Element.SetValue, Element.GenerateValue"]}
{"id": "C194", "title": "The SQL condition of a filter is read as the filter", "statement": "The text and the parameters the SQL store writes for a filter are read by the database as the filter is meant: every operator has the operands it has in the filter and every question mark receives the literal that stood there.", "quantifier": "all filters the store can write, all collections and all databases with the usual precedences", "why_tests_cant": "Expressions nest without bound, and the brackets depend on every pair of operators.", "anchors": ["pyslet/pyslet/odata2/sqlds.py: SQLCollectionBase.SQLExpression, SQLBracket, SQLExpressionGenericBinary"]}
{"id": "C195", "title": "The SQL store returns the entities the filter is true of", "statement": "For a filter, the database selects the rows of the entities of which the filter is true, as the expression evaluator of the library decides it, and leaves out the others.", "quantifier": "all filters the store can write, all entities and all databases with the usual precedences", "why_tests_cant": "Filters and the values of entities are unbounded, nulls and special characters included.", "anchors": ["pyslet/pyslet/odata2/sqlds.py: SQLCollectionBase.WhereClause, SQLExpression, SQLExpressionStartswith, SQLExpressionEndswith, SQLExpressionSubstringof, SQLExpressionIndexof", "pyslet/pyslet/odata2/core.py: BinaryExpression.Evaluate"]}
{"id": "C196", "title": "Comparisons with null find entities", "statement": "Entities without a value for a property can be found in the SQL store by comparing the property with null.", "quantifier": "all collections, properties, comparisons and rows", "why_tests_cant": "No row may be missed, whatever is stored.", "anchors": ["pyslet/pyslet/odata2/sqlds.py: SQLCollectionBase.SQLExpressionEq, SQLExpressionNe"]}
{"id": "C197", "title": "Literals of filters cannot change the SQL", "statement": "Whatever a client writes into the literals of a filter is handed to the database as parameters: the text of the condition depends on the rest of the filter only, has a question mark for each parameter, and names columns of the collection only; every parameter is the value of a literal of the filter.", "quantifier": "all filters and all collections", "why_tests_cant": "A client can choose any string; one that gets into the text is enough for an injection.", "anchors": ["pyslet/pyslet/odata2/sqlds.py: SQLCollectionBase.SQLExpression, QMarkParams.AddParam", "pyslet/pyslet/odata2/sqlds.py: SQLEntityContainer.PrepareSQLValue"]}
{"id": "C198", "title": "Filters the SQL store has no text for are refused", "statement": "A filter with an operator of one operand, mod, cast, isof, substring, replace, round, floor or ceiling anywhere in it raises an error and is not answered with wrong rows.", "quantifier": "all filters and all collections", "why_tests_cant": "The operator may be at any depth.", "anchors": ["pyslet/pyslet/odata2/sqlds.py: SQLCollectionBase.SQLExpression, SQLExpressionSubstring, SQLExpressionMod"]}
{"id": "C199", "title": "A database connection is with at most one thread at a time", "statement": "If a thread has got a connection from AcquireConnection more often than it has given it back with ReleaseConnection, no other thread has done so for the same connection; and no thread gives back more often than it got.", "quantifier": "every schedule of acquires, releases (also of connections that are not the thread's own), time-outs, failures to open and closes of the container, by any number of threads, for every level of thread safety of the database module and every limit", "why_tests_cant": "races show only in schedules that a test cannot force; the claim is about all of them", "anchors": ["pyslet/pyslet/odata2/sqlds.py: SQLEntityContainer.AcquireConnection", "pyslet/pyslet/odata2/sqlds.py: SQLEntityContainer.ReleaseConnection", "pyslet/pyslet/odata2/sqlds.py: SQLConnectionLock"]}
{"id": "C200", "title": "Nested acquires of a thread share one connection", "statement": "While the container is not closed a thread never has two different connections: an acquire by a thread that has one returns that one at once, and the thread can give it back.", "quantifier": "every schedule without close, every thread and every connection it has", "why_tests_cant": "depends on the state all other threads have left behind", "anchors": ["pyslet/pyslet/odata2/sqlds.py: SQLEntityContainer.AcquireConnection", "pyslet/pyslet/odata2/sqlds.py: SQLEntityContainer.ReleaseConnection", "pyslet/pyslet/odata2/sqlds.py: SQLConnectionLock"]}
{"id": "C201", "title": "No more connections are open than are allowed", "statement": "While the container is not closed, the number of connections opened and not yet closed never exceeds maxConnections, or one if the database module must not be shared between threads.", "quantifier": "every schedule without close, including failures to open a connection", "why_tests_cant": "the worst case depends on how reuse, failures and waiting interleave", "anchors": ["pyslet/pyslet/odata2/sqlds.py: SQLEntityContainer.AcquireConnection", "pyslet/pyslet/odata2/sqlds.py: SQLEntityContainer.ReleaseConnection", "pyslet/pyslet/odata2/sqlds.py: SQLConnectionLock"]}
{"id": "C202", "title": "Connections are handed only to the thread that opened them unless they may be shared", "statement": "Every connection returned by AcquireConnection has been opened; if the database module's thread safety is 0 or 1 it has been opened by the very thread that gets it.", "quantifier": "every schedule, every thread and connection", "why_tests_cant": "reuse of another thread's connection happens only when the pool is exhausted in a certain order", "anchors": ["pyslet/pyslet/odata2/sqlds.py: SQLEntityContainer.AcquireConnection", "pyslet/pyslet/odata2/sqlds.py: SQLEntityContainer.ReleaseConnection", "pyslet/pyslet/odata2/sqlds.py: SQLConnectionLock"]}
{"id": "C203", "title": "A thread that waits for a connection is woken up when one is free", "statement": "If threads wait for a connection and no thread has one, some waiting thread has been notified, and it gets a connection as soon as it runs.", "quantifier": "every schedule without close", "why_tests_cant": "a lost notification needs a particular order of waiting, failing and timing out", "anchors": ["pyslet/pyslet/odata2/sqlds.py: SQLEntityContainer.AcquireConnection", "pyslet/pyslet/odata2/sqlds.py: SQLEntityContainer.ReleaseConnection", "pyslet/pyslet/odata2/sqlds.py: SQLConnectionLock"]}
{"id": "C204", "title": "A connection that cannot be opened does not hinder other threads", "statement": "If OpenConnection raises an exception for one thread, other threads still get connections once opening works again.", "quantifier": "every schedule before the failure and every schedule of the other threads after it", "why_tests_cant": "the lock that is kept is only seen by other threads, at any time later", "anchors": ["pyslet/pyslet/odata2/sqlds.py: SQLEntityContainer.AcquireConnection", "pyslet/pyslet/odata2/sqlds.py: SQLEntityContainer.ReleaseConnection", "pyslet/pyslet/odata2/sqlds.py: SQLConnectionLock"]}
{"id": "C205", "title": "A closed connection is never handed out", "statement": "After a connection has been closed AcquireConnection never returns it again.", "quantifier": "every schedule, including closes of the container", "why_tests_cant": "the entry of a connection survives its closing in some orders of events", "anchors": ["pyslet/pyslet/odata2/sqlds.py: SQLEntityContainer.close", "pyslet/pyslet/odata2/sqlds.py: SQLEntityContainer.AcquireConnection", "pyslet/pyslet/odata2/sqlds.py: SQLEntityContainer.ReleaseConnection"]}
{"id": "C206", "title": "No connection is closed while a thread uses it", "statement": "When a connection is closed no thread has it.", "quantifier": "every schedule of acquires, releases, time-outs, failures and closes", "why_tests_cant": "needs a thread in the middle of its work when another one acts", "anchors": ["pyslet/pyslet/odata2/sqlds.py: SQLEntityContainer.close", "pyslet/pyslet/odata2/sqlds.py: SQLEntityContainer.AcquireConnection", "pyslet/pyslet/odata2/sqlds.py: SQLEntityContainer.ReleaseConnection"]}
{"id": "C207", "title": "close closes every connection and ends the use of the container", "statement": "close closes the connections that are open, waiting for the threads that use them, and returns; afterwards no connection is opened or handed out.", "quantifier": "every schedule before and after close, every set of threads that are alive", "why_tests_cant": "involves threads that hold connections, wait or have ended when close is called", "anchors": ["pyslet/pyslet/odata2/sqlds.py: SQLEntityContainer.close", "pyslet/pyslet/odata2/sqlds.py: SQLEntityContainer.AcquireConnection", "pyslet/pyslet/odata2/sqlds.py: SQLEntityContainer.ReleaseConnection"]}
{"id": "C208", "title": "A thread cannot give back the connection of another thread", "statement": "ReleaseConnection with a connection that another thread has raises an exception, and the other thread still has the connection.", "quantifier": "every schedule without close, every two threads and every connection", "why_tests_cant": "depends on the locks held by other threads", "anchors": ["pyslet/pyslet/odata2/sqlds.py: SQLEntityContainer.AcquireConnection", "pyslet/pyslet/odata2/sqlds.py: SQLEntityContainer.ReleaseConnection", "pyslet/pyslet/odata2/sqlds.py: SQLConnectionLock"]}
{"id": "C209", "title": "Literals out of the range of their type are refused", "statement": "Whatever text is given, it is refused or read as a literal whose value belongs to its type: Int32 and Int64 values fit 32 and 64 bits, Decimals have at most 29 digits before and after the point, finite Singles and Doubles do not exceed the largest of their type, binary data are bytes, GUIDs have 128 bits, dates exist in the calendar and times in the day. The same holds for every literal inside an expression that is read.", "quantifier": "all texts given to ParseURILiteral and to CommonExpression.FromString, with any nesting of brackets, calls and operators", "why_tests_cant": "a limit that is one too large is only seen at the limit itself, for every type and in every place an expression can have a literal", "anchors": ["pyslet/pyslet/odata2/csdl.py: Int32Value.SetFromNumericLiteral, Int64Value.SetFromNumericLiteral, DecimalValue.SetFromNumericLiteral, SingleValue.SetFromNumericLiteral, DoubleValue.SetFromNumericLiteral, Parser.ParseDateTimeLiteral, Parser.ParseTimeLiteral, Parser.ParseBinaryLiteral", "pyslet/pyslet/odata2/core.py: Parser.ParseURILiteral, ParseURILiteral, Parser.ParseCommonExpression"]}
{"id": "C210", "title": "Reading a database collection by following links is complete", "statement": "A client that reads an entity set in a SQL database by following the links to the next pages gets every entity that is in the table throughout exactly once, in the order asked for, whatever others insert, delete or change between the requests; what it gets was in the table when the page was read; a table that does not change is read completely, and reading it ends after at most one page for every row. (Order columns: whole numbers of 64 bits or texts, not null, with at most 512 characters together.)", "quantifier": "all collections, orders, tables, limits of the server, and all histories of changes between the requests", "why_tests_cant": "The table changes between the requests in infinitely many ways and the position is passed as text; a test can try only a few histories.", "anchors": ["pyslet/pyslet/odata2/sqlds.py: SQLCollectionBase.SetPage, NextSkipToken, pageGenerator, WhereSkiptokenClause, OrderBy", "pyslet/pyslet/odata2/core.py: FeedDocument/GetNextPageLocation, ODataURI.FormatLiteral, Parser.ParseURILiteral"]}
{"id": "C211", "title": "Entities without a value in the order column are read page by page too", "statement": "Entities that have no value (NULL) in a property the collection is ordered by are read too when the collection is read page by page.", "quantifier": "all tables with null values, all databases (null sorted first or last), limits and requests", "why_tests_cant": "A null value fails only at the end of a page or after one, and only for some databases.", "anchors": ["pyslet/pyslet/odata2/sqlds.py: pageGenerator, WhereSkiptokenClause", "pyslet/pyslet/odata2/csdl.py: EDMValue.NewSimpleValueFromValue"]}
{"id": "C212", "title": "Long order values do not stop paging", "statement": "A collection can be read page by page whatever the length of the values it is ordered by.", "quantifier": "all lengths of keys and order values", "why_tests_cant": "The failure depends on which row ends a page and on the length of its values.", "anchors": ["pyslet/pyslet/odata2/sqlds.py: pageGenerator (the branch for tokens longer than 512), SetPage"]}
{"id": "C213", "title": "Pages of a database collection keep to their limits", "statement": "A page has at most as many entities as the limit of the server and as $top; if $top is below the limit, the page holds exactly the first entities in order and there is no link to another page.", "quantifier": "all tables, orders, limits and values of $top", "why_tests_cant": "All combinations of two counters and tables of any length.", "anchors": ["pyslet/pyslet/odata2/sqlds.py: pageGenerator", "pyslet/pyslet/odata2/server.py: ExpandResource/SetPage calls"]}
{"id": "C214", "title": "$top limits what is read by following links", "statement": "A client that asks for n entities and follows the links to further pages gets at most n entities.", "quantifier": "all n, tables and limits of the server", "why_tests_cant": "Only a client that follows links sees it, and only for some relations of n, limit and table.", "anchors": ["pyslet/pyslet/odata2/sqlds.py: pageGenerator, NextSkipToken", "pyslet/pyslet/odata2/core.py: GetNextPageLocation"]}
{"id": "C215", "title": "An insertion into a SQL store is all or nothing", "statement": "Inserting an entity with new or existing entities bound to it as objects, at any depth, or with existing ones bound by key where the entity itself has the foreign key, either succeeds and is committed with everything, or raises an exception and leaves the database as it was; and if the program stops at any moment, what is committed is the state before or the complete one.", "quantifier": "every model with its associations, entity with any tree of bound entities, content and constraints of the database, set of statements and commits that fail, point at which the program stops; databases that can roll back", "why_tests_cant": "a test inserts a few entities and never stops the program between two statements", "anchors": ["pyslet/pyslet/odata2/sqlds.py: SQLTransaction, SQLEntityCollection.InsertEntity, InsertEntitySQL"]}
{"id": "C216", "title": "An insertion with bindings by key is all or nothing", "statement": "The same holds if entities are bound by their keys in any way.", "quantifier": "every insertion whose entities are bound by their keys", "why_tests_cant": "the unfinished state shows only if a later key is missing or the program stops in between", "anchors": ["pyslet/pyslet/odata2/sqlds.py: SQLEntityCollection.InsertEntitySQL, SQLCollectionBase.__getitem__"]}
{"id": "C217", "title": "An update of a SQL store is all or nothing", "statement": "Updating an entity and its links, with existing entities bound by key where it has the foreign key itself, entities bound as objects elsewhere, and new ones where they have the foreign key, either succeeds and is committed with everything, or leaves the database as it was, also if the program stops at any moment.", "quantifier": "every model, entity, bindings of this kind, content and constraints of the database, failing statements and stopping point; databases that can roll back", "why_tests_cant": "tests do not fail in the middle of an update", "anchors": ["pyslet/pyslet/odata2/sqlds.py: SQLEntityCollection.UpdateEntity"]}
{"id": "C218", "title": "An update with keys or new entities in link tables is all or nothing", "statement": "The same holds for every other binding.", "quantifier": "every update", "why_tests_cant": "shows only if a later binding fails or the program stops in between", "anchors": ["pyslet/pyslet/odata2/sqlds.py: SQLEntityCollection.UpdateEntity"]}
{"id": "C219", "title": "A deletion is all or nothing if nothing depends on the entity", "statement": "Deleting an entity of a set on which no other entities depend removes it with all its links, or leaves the database as it was, also if the program stops at any moment.", "quantifier": "every model, entity set, key, content and constraints of the database, failing statements and stopping point; databases that can roll back", "why_tests_cant": "tests do not fail in the middle of a deletion", "anchors": ["pyslet/pyslet/odata2/sqlds.py: SQLEntityCollection.DeleteEntity, __delitem__"]}
{"id": "C220", "title": "A deletion with dependent entities is all or nothing", "statement": "The same holds if other entities have to be deleted with the entity.", "quantifier": "every deletion", "why_tests_cant": "shows only if a dependent entity cannot be deleted or the program stops in between", "anchors": ["pyslet/pyslet/odata2/sqlds.py: SQLEntityCollection.DeleteEntity"]}
{"id": "C221", "title": "Changes of links are all or nothing", "statement": "Adding, replacing, removing and clearing links through a navigation property is made in full or not at all, also if the program stops in between: links are not lost because the new one cannot be made.", "quantifier": "every model, end of an association, pair of keys, content and constraints of the database, failing statements and stopping point; databases that can roll back", "why_tests_cant": "tests replace links only when it succeeds", "anchors": ["pyslet/pyslet/odata2/sqlds.py: ForeignKeyCollection, ReverseKeyCollection, SQLAssociationCollection: InsertLink, ReplaceLink, DeleteLink, ClearLinks"]}
{"id": "C222", "title": "What has been inserted is in the database", "statement": "After an insertion without an exception the entity with its data, all its links, and all new entities bound to it with their data and links, to any depth, are committed, and no entity or link that was there is lost.", "quantifier": "every model, tree of distinct objects that fits it, database and its constraints", "why_tests_cant": "a test compares a few fixed trees", "anchors": ["pyslet/pyslet/odata2/sqlds.py: SQLEntityCollection.InsertEntitySQL"]}
{"id": "C223", "title": "An insertion replaces no entity", "statement": "An insertion succeeds only if there was no entity with its key in the set; without bindings the exception for a taken key is ConstraintError and the database stays as it was.", "quantifier": "every model, entity, database", "why_tests_cant": "ranges over all databases", "anchors": ["pyslet/pyslet/odata2/sqlds.py: SQLEntityCollection.InsertEntitySQL"]}
{"id": "C224", "title": "What has been updated is in the database", "statement": "After an update without an exception the entity has its new data, committed, and every other entity is there with the data it had.", "quantifier": "every model, entity with any bindings, database", "why_tests_cant": "ranges over all databases and bindings", "anchors": ["pyslet/pyslet/odata2/sqlds.py: SQLEntityCollection.UpdateEntity"]}
{"id": "C225", "title": "What has been deleted is gone with all links to it", "statement": "After a deletion without an exception there is no entity with the key, no foreign key of another entity refers to it, no link table has a row with it, whatever was deleted with it, and nothing new is in the database.", "quantifier": "every model, depth of dependent entities, key, database", "why_tests_cant": "cascades of any depth", "anchors": ["pyslet/pyslet/odata2/sqlds.py: SQLEntityCollection.DeleteEntity"]}
{"id": "C226", "title": "No exception of the database driver reaches the caller", "statement": "Insertions, updates and deletions raise exceptions of the library for failures of the database, never those of the driver.", "quantifier": "every call, database and failing statement", "why_tests_cant": "every statement can fail", "anchors": ["pyslet/pyslet/odata2/sqlds.py: SQLTransaction.Rollback"]}
{"id": "C227", "title": "A database without roll back is supported", "statement": "If the database cannot roll back, that is ignored and the exception of the failure is raised, as documented.", "quantifier": "every database without roll back", "why_tests_cant": "needs a driver without rollback", "anchors": ["pyslet/pyslet/odata2/sqlds.py: SQLTransaction.Rollback"]}
{"id": "C228", "title": "A failed insertion can be tried again", "statement": "After an insertion that failed and left the database as it was, the same entity can be inserted again.", "quantifier": "every entity and failure", "why_tests_cant": "needs a failure at the right moment", "anchors": ["pyslet/pyslet/odata2/sqlds.py: SQLEntityCollection.InsertEntitySQL"]}
{"id": "C229", "title": "At most one link where the model says so", "statement": "If the model allows at most one entity at an end, no sequence of insertions links two.", "quantifier": "every model and history of insertions", "why_tests_cant": "ranges over histories", "anchors": ["pyslet/pyslet/odata2/sqlds.py: SQLEntityCollection.CreateTableQuery, InsertEntitySQL, UpdateLink"]}
{"id": "C230", "title": "Removing a link that is not there raises KeyError", "statement": "DeleteLink raises KeyError if there is no such link.", "quantifier": "every end of an association and pair of keys", "why_tests_cant": "every kind of association", "anchors": ["pyslet/pyslet/odata2/sqlds.py: SQLEntityCollection.DeleteLink, SQLAssociationCollection.DeleteLink"]}
{"id": "C231", "title": "An update can bind a new entity through a foreign key", "statement": "An update may bind a new entity where the updated entity has the foreign key: it is inserted first.", "quantifier": "every model, entity and new entity", "why_tests_cant": "ranges over all models", "anchors": ["pyslet/pyslet/odata2/sqlds.py: SQLEntityCollection.UpdateEntity"]}
{"id": "C232", "title": "Responses are read however they arrive", "statement": "A response as the protocol defines it - status line, header fields with any folding and repetition, a body delimited by Content-Length, by chunks with extensions and a trailer, or absent because of the status or the method - with any informational responses before it, is read with exactly its version, status, header values and data; its end is reported once, and the bytes that follow it are left for the next response. Before its last byte has arrived it is not reported as complete and is no error.", "quantifier": "every well-formed response, every sequence of informational responses before it, every way to cut the bytes in pieces, everything that follows", "why_tests_cant": "There are infinitely many ways in which the network cuts a response; a test tries a few.", "anchors": ["pyslet/pyslet/rfc2616.py: Connection._RecvResponseData, HTTPResponse.RecvNeeds, RecvLine, RecvBytes, ReadHeader, HTTPMessage.CalculateTransferLength"]}
{"id": "C233", "title": "Bodies that end with the connection are passed on as they arrive", "statement": "If no header announces the end of a body, every byte received after the header is passed to the request at once, in order and once, and the response is not complete while the connection lasts.", "quantifier": "every such header, every body and every way to cut the bytes in pieces", "why_tests_cant": "All cuts of all bodies.", "anchors": ["pyslet/pyslet/rfc2616.py: HTTPResponse.RecvBytes, Connection._RecvResponseData"]}
{"id": "C234", "title": "Reading what has arrived comes to an end", "statement": "Whatever bytes arrive, in whatever state a response is, the loop that cuts them in lines and blocks ends after a number of rounds bounded by the number of bytes.", "quantifier": "every state of a response and a buffer, all bytes", "why_tests_cant": "A loop that does not end is found by a test only if the test has the input.", "anchors": ["pyslet/pyslet/rfc2616.py: Connection._RecvResponseData"]}
{"id": "C235", "title": "What is read does not depend on how the bytes arrive", "statement": "The result of reading bytes depends on the bytes and not on the pieces in which they were received.", "quantifier": "all bytes and all ways to cut them", "why_tests_cant": "All pairs of cuts of all texts.", "anchors": ["pyslet/pyslet/rfc2616.py: Connection._RecvResponseData, HTTPResponse.RecvNeeds"]}
{"id": "C236", "title": "What is no response is an HTTP error", "statement": "Bytes that are not a response of the protocol are reported as an HTTP exception.", "quantifier": "all bytes that are no response", "why_tests_cant": "The texts that are not responses cannot be listed.", "anchors": ["pyslet/pyslet/rfc2616.py: HTTPResponse.RecvLine, ReadHeader"]}
{"id": "C237", "title": "Every response of the protocol is read", "statement": "A response that the protocol allows is read without an exception and with its body.", "quantifier": "all responses that the protocol allows, also with brackets or trailing spaces in the reason, encodings that encode nothing and repeated lengths", "why_tests_cant": "The allowed responses cannot be listed.", "anchors": ["pyslet/pyslet/rfc2616.py: HTTPResponse.RecvLine, HTTPMessage.CalculateTransferLength, GetContentLength"]}
{"id": "C238", "title": "The body of a request is sent as its headers announce it", "statement": "What is sent as a body is what the Transfer-Encoding and Content-Length that are sent with it announce: well-formed chunks with the data, exactly the announced number of bytes, or nothing. If a stream ends too early the request fails.", "quantifier": "every method, every set of headers, every text and every stream however its reads are cut, every block size", "why_tests_cant": "All streams and all ways in which their reads return.", "anchors": ["pyslet/pyslet/rfc2616.py: HTTPMessage.CalculateTransferLength, HTTPRequest.ReadRequestHeader, ReadRequestBody"]}
{"id": "C239", "title": "A text sent in chunks is well-formed chunks", "statement": "A text as the body of a request with a chunked encoding is sent as chunks with one end.", "quantifier": "every text", "why_tests_cant": "All texts, also the empty one.", "anchors": ["pyslet/pyslet/rfc2616.py: HTTPRequest.ReadRequestBody"]}
{"id": "C240", "title": "The headers of a request are sent once each", "statement": "The head of a request is its request line, one field for every header that was set and for the credentials, none twice, with its value, and the empty line.", "quantifier": "every history of setting, adding to and deleting headers, every credential", "why_tests_cant": "All histories of headers.", "anchors": ["pyslet/pyslet/rfc2616.py: HTTPMessage.SetHeader, GetHeaderList, HTTPRequest.ReadRequestHeader"]}
{"id": "C241", "title": "A header value cannot add other headers", "statement": "The fields that a receiver reads in a request are those of the headers that were set and no other.", "quantifier": "every value of a header", "why_tests_cant": "All values, also with line ends.", "anchors": ["pyslet/pyslet/rfc2616.py: HTTPMessage.SetHeader, HTTPRequest.ReadRequestHeader"]}
{"id": "C242", "title": "The HTTP client never manages more connections than allowed", "statement": "Whatever the threads that share a request manager do and in whatever order - queue requests, wait, process their connections, clean up, close - the active and the idle connections together are never more than maxConnections; so ActiveCount() is never more.", "quantifier": "every number of threads, every limit, every schedule of calls, notifications, time-outs and cleanups, of any length", "why_tests_cant": "The number of interleavings is unbounded; a test runs a few.", "anchors": ["pyslet/pyslet/rfc2616.py:HTTPRequestManager.QueueRequest", "pyslet/pyslet/rfc2616.py:HTTPRequestManager._ActivateConnection", "pyslet/pyslet/rfc2616.py:HTTPRequestManager._DeactivateConnection", "pyslet/pyslet/rfc2616.py:HTTPRequestManager.ActiveCount"]}
{"id": "C243", "title": "No HTTP connection is used by two threads", "statement": "At no time is a connection processed, or about to be processed, by two threads, or by any thread while it is on the idle list - even if connections are killed while their threads process them.", "quantifier": "every schedule of any number of threads", "why_tests_cant": "A violation needs a particular interleaving of two threads with a cleanup in a third.", "anchors": ["pyslet/pyslet/rfc2616.py:Connection", "pyslet/pyslet/rfc2616.py:HTTPRequestManager._ActivateConnection", "pyslet/pyslet/rfc2616.py:HTTPRequestManager._DeactivateConnection", "pyslet/pyslet/rfc2616.py:HTTPRequestManager.ThreadTask"]}
{"id": "C244", "title": "A queued HTTP request is on a connection its thread processes", "statement": "Whenever QueueRequest returns, at once or after waiting, the request is on a connection to its scheme, host and port that is bound to the calling thread, so that the next ThreadTask of that thread processes it.", "quantifier": "every state a schedule can lead to, every target and thread", "why_tests_cant": "It depends on what other threads did while the call waited.", "anchors": ["pyslet/pyslet/rfc2616.py:HTTPRequestManager.QueueRequest", "pyslet/pyslet/rfc2616.py:HTTPRequestManager.ThreadTask"]}
{"id": "C245", "title": "HTTP connections are reused before new ones are made, and closed only for want of room", "statement": "A thread that has a connection to the target goes on with it; otherwise the idle connection to the target that was active last is taken; a connection is made only if there is neither; an idle connection is closed for it only if there are maxConnections, then one that was active longest ago, and only one; the call waits or raises RequestManagerBusy only if all maxConnections connections are active.", "quantifier": "every state a schedule can lead to, every target, thread and time", "why_tests_cant": "All combinations of active and idle connections and their times of activity.", "anchors": ["pyslet/pyslet/rfc2616.py:HTTPRequestManager.QueueRequest", "pyslet/pyslet/rfc2616.py:HTTPRequestManager._DeleteIdleConnection"]}
{"id": "C246", "title": "One HTTP connection for each thread and target, and no more than allowed", "statement": "Each thread has at most one connection to each target, at most maxConnections connections are open at any one time, and a connection that has been killed is never used again.", "quantifier": "every schedule of any number of threads with any cleanups", "why_tests_cant": "The documentation promises it for every schedule; it fails only if a connection is killed while its thread processes it and a finished request queues another.", "anchors": ["pyslet/pyslet/rfc2616.py:HTTPRequestManager", "pyslet/pyslet/rfc2616.py:HTTPRequestManager._DeactivateConnection", "pyslet/pyslet/rfc2616.py:HTTPRequestManager.ActiveCleanup"]}
{"id": "C247", "title": "No thread sleeps while an HTTP connection could be had", "statement": "While a thread waits in QueueRequest without having been notified, each of the maxConnections places is taken by an active connection or by a thread that has been notified and will go on; a thread that goes on gets a connection if a place is free.", "quantifier": "every schedule of any number of threads with any cleanups", "why_tests_cant": "Lost wake-ups appear in rare interleavings only.", "anchors": ["pyslet/pyslet/rfc2616.py:HTTPRequestManager.QueueRequest", "pyslet/pyslet/rfc2616.py:HTTPRequestManager._DeactivateConnection", "pyslet/pyslet/rfc2616.py:HTTPRequestManager.ActiveCleanup"]}
{"id": "C248", "title": "A closed HTTP request manager makes no connections", "statement": "After Close has returned no connection is made and no request is accepted.", "quantifier": "every schedule before and after Close", "why_tests_cant": "Threads may be waiting for a connection at the time of the call.", "anchors": ["pyslet/pyslet/rfc2616.py:HTTPRequestManager.Close", "pyslet/pyslet/rfc2616.py:HTTPRequestManager.QueueRequest"]}
{"id": "C249", "title": "Cleaning up spares HTTP connections that were in use lately", "statement": "ActiveCleanup kills and IdleCleanup closes the connections that have been inactive for longer than the limit, all of them and no others; a request that has just been queued is not lost.", "quantifier": "every state a schedule can lead to, every time and limit", "why_tests_cant": "It depends on when the connection was made, bound and processed, relative to the cleanup in another thread.", "anchors": ["pyslet/pyslet/rfc2616.py:HTTPRequestManager.ActiveCleanup", "pyslet/pyslet/rfc2616.py:HTTPRequestManager.IdleCleanup", "pyslet/pyslet/rfc2616.py:Connection.__init__"]}
{"id": "C250", "title": "HTTP requests are sent one after the other, in the order in which they were queued", "statement": "The bytes sent over one socket are the messages of the requests started on it, each one its head and its body in full before the next one begins, up to some point; requests are started in the order in which they were queued.", "quantifier": "every history of queued requests, rounds with any readiness of the socket and any number of bytes taken, closes and kills, in which requests whose method cannot be repeated are only queued when the connection is at rest", "why_tests_cant": "Partial sends, timeouts and responses that come early interleave in ways no test enumerates.", "anchors": ["pyslet/pyslet/rfc2616.py:Connection.ConnectionTask", "pyslet/pyslet/rfc2616.py:Connection._StartRequest", "pyslet/pyslet/rfc2616.py:Connection._SendRequestData"]}
{"id": "C251", "title": "HTTP responses go to the requests they answer", "statement": "If a server answers the requests of a connection in order, with any number of informational responses before each answer, then what the requests are told, in order, is the statuses and bodies of the answers to them: no request is given the response to another one.", "quantifier": "every history as in C250, every well-formed sequence of answers and every way in which their bytes are cut into pieces", "why_tests_cant": "Responses arrive in arbitrary pieces while other requests are being sent.", "anchors": ["pyslet/pyslet/rfc2616.py:Connection._RecvResponseData", "pyslet/pyslet/rfc2616.py:Connection.ConnectionTask", "pyslet/pyslet/rfc2616.py:HTTPRequest.ResponseFinished"]}
{"id": "C252", "title": "An HTTP request is sent once", "statement": "Every queued request is started at most once, and a request whose method cannot be repeated without harm is not started while an answer is awaited.", "quantifier": "every history of a connection", "why_tests_cant": "It depends on which answers are outstanding when a request comes to the front of the queue.", "anchors": ["pyslet/pyslet/rfc2616.py:Connection.ConnectionTask", "pyslet/pyslet/rfc2616.py:HTTPRequest.IsIdempotent"]}
{"id": "C253", "title": "A body that waits for 100 Continue is not sent too early", "statement": "After a request that expects 100 Continue has been started, only bytes of its head are sent until an informational response to it has been read, the time to wait has passed, or the connection goes on to another request or is closed.", "quantifier": "every history as in C250", "why_tests_cant": "The response may arrive at any time, in pieces, and responses to earlier requests are read while the request waits.", "anchors": ["pyslet/pyslet/rfc2616.py:Connection._StartRequest", "pyslet/pyslet/rfc2616.py:Connection.ConnectionTask", "pyslet/pyslet/rfc2616.py:Connection.Continue"]}
{"id": "C254", "title": "A killed HTTP connection is never opened again", "statement": "Once Kill has returned, the connection opens no socket, whatever is queued or done with it later.", "quantifier": "every history before and after Kill", "why_tests_cant": "Kill is called from another thread at any point of the life of the connection.", "anchors": ["pyslet/pyslet/rfc2616.py:Connection.Kill", "pyslet/pyslet/rfc2616.py:Connection.NewSocket"]}
{"id": "C255", "title": "Every HTTP request hears once that it is over", "statement": "Finished of every request that was given to a connection is called exactly once, at the latest when the connection is closed.", "quantifier": "every history as in C250, with every way in which the server can stop answering", "why_tests_cant": "The server may hang up at every byte of every response, and requests may fail before they are sent.", "anchors": ["pyslet/pyslet/rfc2616.py:Connection.Close", "pyslet/pyslet/rfc2616.py:HTTPRequest.ResponseFinished", "pyslet/pyslet/rfc2616.py:HTTPRequest.Disconnect", "pyslet/pyslet/rfc2616.py:Connection._StartRequest"]}
{"id": "C256", "title": "HTTP responses that have arrived are passed on", "statement": "If all bytes of the answers to the requests of a connection have been received before the connection ends, every request is told its answer.", "quantifier": "every history as in C250 and every way in which the bytes arrive", "why_tests_cant": "Several answers may arrive in one piece.", "anchors": ["pyslet/pyslet/rfc2616.py:Connection.ConnectionTask", "pyslet/pyslet/rfc2616.py:Connection._RecvResponseData"]}
{"id": "C257", "title": "HTTP responses that are cut off are not taken for whole ones", "statement": "A request is over with the status of a successful response and without an error only if the response was read to its end.", "quantifier": "every history as in C250, every point at which the server hangs up", "why_tests_cant": "Every byte of a response is a point at which the connection can break.", "anchors": ["pyslet/pyslet/rfc2616.py:Connection.Close", "pyslet/pyslet/rfc2616.py:HTTPResponse.ServerDisconnect", "pyslet/pyslet/rfc2616.py:HTTPRequest.ResponseFinished"]}
{"id": "C258", "title": "HTTP basic credentials are read from what is written", "statement": "Writing basic credentials for an Authorization header and reading the header gives the same user and the same password.", "quantifier": "every user and every password of octets", "why_tests_cant": "There is no end of texts, of every length; base 64 has three cases for the last group, and the separator may occur in what it separates.", "anchors": ["pyslet/pyslet/rfc2617.py:BasicCredentials.__str__", "pyslet/pyslet/rfc2617.py:Credentials.FromHTTPString", "pyslet/pyslet/rfc2617.py:BasicCredentials.SetBasicCredentials"]}
{"id": "C259", "title": "An HTTP protection space is one server", "statement": "The protection space of a request, made from its URL, names the scheme, the host and the port that the request is sent to; two requests with the same protection space go to the same server.", "quantifier": "every two URLs for which requests can be made, whatever case, port, path and query they have", "why_tests_cant": "URLs for one server can be written in many ways, and two servers must not have the same name.", "anchors": ["pyslet/pyslet/rfc2616_params.py:HTTPURL.GetCanonicalRoot", "pyslet/pyslet/rfc2616.py:HTTPRequest.SetRequestURI", "pyslet/pyslet/rfc2396.py:ServerBasedURL.GetAddr"]}
{"id": "C260", "title": "HTTP credentials are sent only to the server they were given for", "statement": "Every request of an exchange that carries credentials of the manager is sent to the server that is their protection space.", "quantifier": "every list of credentials, every request made without an Authorization header, every sequence of responses with any redirects and challenges", "why_tests_cant": "The server chooses the responses and so the history of the exchange; a single wrong turn gives a password away.", "anchors": ["pyslet/pyslet/rfc2616.py:HTTPRequest.Finished", "pyslet/pyslet/rfc2616.py:HTTPRequest.SetRequestURI", "pyslet/pyslet/rfc2616.py:HTTPRequestManager.FindCredentials", "pyslet/pyslet/rfc2616.py:HTTPRequestManager.FindCredentialsByURL"]}
{"id": "C261", "title": "HTTP credentials are known to be good for the union of the paths added", "statement": "Credentials are taken to be good for a path if and only if one of the paths that were added is a prefix of it, an empty segment standing for any segment, whatever was replaced on the way.", "quantifier": "every history of additions to new credentials and every path", "why_tests_cant": "Prefixes replace each other, so that the outcome could depend on the order of a history of any length.", "anchors": ["pyslet/pyslet/rfc2617.py:BasicCredentials.AddSuccessPath", "pyslet/pyslet/rfc2617.py:BasicCredentials.TestPath", "pyslet/pyslet/rfc2617.py:BasicCredentials.IsPrefix"]}
{"id": "C262", "title": "HTTP credentials are volunteered only at or below paths where they have worked", "statement": "A request is sent with credentials that the server has not asked for only if they are for that server and its path is, or is below, the path of a request with these credentials that was answered with a status other than 401.", "quantifier": "every list of credentials, every history of additions, every request and every sequence of responses", "why_tests_cant": "It depends on all that has been answered before; and paths of any length and form are compared.", "anchors": ["pyslet/pyslet/rfc2617.py:BasicCredentials.TestURL", "pyslet/pyslet/rfc2617.py:BasicCredentials.TestPath", "pyslet/pyslet/rfc2616.py:HTTPRequest.Finished", "pyslet/pyslet/rfc2616.py:HTTPRequestManager.FindCredentialsByURL"]}
{"id": "C263", "title": "HTTP redirects come to an end", "statement": "For every request there is a number such that no more than that many requests are sent in the exchange, whatever the server answers.", "quantifier": "every request and every sequence of responses", "why_tests_cant": "It says something about sequences of redirects without a bound on their length.", "anchors": ["pyslet/pyslet/rfc2616.py:HTTPRequest.Finished"]}
{"id": "C264", "title": "HTTP requests that change something are not sent again without asking", "statement": "A request is redirected only if its method is GET or HEAD, and every request of an exchange has the method and the body of the first.", "quantifier": "every request, all credentials, every sequence of responses", "why_tests_cant": "Methods, statuses and sequences of redirects combine in any way.", "anchors": ["pyslet/pyslet/rfc2616.py:HTTPRequest.Finished", "pyslet/pyslet/rfc2616.py:HTTPRequest.Resend"]}
{"id": "C265", "title": "HTTP responses are handled without exceptions", "statement": "Whatever the status and the headers of a response, handling it at the end of a request raises nothing.", "quantifier": "every response, every request and all credentials", "why_tests_cant": "A server can send anything in its headers, and exceptions end the thread that reads for all requests.", "anchors": ["pyslet/pyslet/rfc2616.py:HTTPRequest.Finished", "pyslet/pyslet/rfc2616.py:HTTPResponse.GetLocation", "pyslet/pyslet/rfc2616.py:HTTPResponse.GetWWWAuthenticateChallenges", "pyslet/pyslet/rfc2617.py:Credentials.MatchChallenge"]}
{"id": "C266", "title": "HTTP challenges are read from what is written", "statement": "Writing a challenge, or a list of challenges separated by commas, and reading the text gives the same challenges.", "quantifier": "every scheme, every list of parameters with tokens for names and any octets for values, every list of challenges", "why_tests_cant": "Values may contain anything, quotes, commas and equals signs too, and commas separate both parameters and challenges.", "anchors": ["pyslet/pyslet/rfc2617.py:Challenge.__str__", "pyslet/pyslet/rfc2617.py:Challenge.FromString", "pyslet/pyslet/rfc2617.py:Challenge.ListFromString", "pyslet/pyslet/rfc2617.py:AuthorizationParser.RequireChallenge"]}
{"id": "C267", "title": "Parameters of HTTP challenges are found whatever the case of their names", "statement": "Looking up a name in a challenge gives the value of a parameter with that name but for case, of one with exactly that name if there is one, and fails only if there is none; every challenge has a realm.", "quantifier": "every list of parameters, with names that may be repeated or differ in case only, and every name", "why_tests_cant": "There are any number of parameters, in any order and with any repetitions.", "anchors": ["pyslet/pyslet/rfc2617.py:Challenge.__init__", "pyslet/pyslet/rfc2617.py:Challenge.__getitem__"]}
{"id": "C268", "title": "Every HTTP request names its server in the Host header", "statement": "Every request that is sent in an exchange has a Host header with the host and, if it is not the usual one for the scheme, the port of the server that it is sent to, whatever headers were set before.", "quantifier": "every request, all credentials, every sequence of responses with any redirects", "why_tests_cant": "Redirects change the server any number of times.", "anchors": ["pyslet/pyslet/rfc2616.py:HTTPRequest.SetRequestURI", "pyslet/pyslet/rfc2616.py:HTTPRequest.Finished"]}
{"id": "C269", "title": "An HTTP response is followed by at most one request", "statement": "Handling a response queues the request again at most once.", "quantifier": "every state of an exchange and every response, with any list of challenges", "why_tests_cant": "The code queues the request once for every challenge that matches; whether there can be two depends on every header that can be read.", "anchors": ["pyslet/pyslet/rfc2616.py:HTTPRequest.Finished", "pyslet/pyslet/rfc2617.py:Challenge.ListFromString"]}
{"id": "C270", "title": "An HTTP challenge is answered with the credentials for the server", "statement": "If a server answers 401 with a basic challenge and the manager has credentials for the server, without a realm, the same request is sent again to the same server with the first of them.", "quantifier": "every list of credentials, every request, every list of parameters of the challenge and whatever follows", "why_tests_cant": "The right credentials have to be found among any number of others, and challenges have any parameters.", "anchors": ["pyslet/pyslet/rfc2616.py:HTTPRequest.Finished", "pyslet/pyslet/rfc2616.py:HTTPRequestManager.FindCredentials", "pyslet/pyslet/rfc2617.py:Credentials.MatchChallenge"]}
{"id": "C271", "title": "HTTP redirects are followed if and only if they are to be", "statement": "If redirects are to be followed, a response with a status from 300 to 399, for methods other than GET and HEAD other than 302, whose location is the URL of a request is followed by a request to the server and with the path and the query of that URL; if they are not, it ends the exchange.", "quantifier": "every request, all credentials, every status, every location and whatever follows", "why_tests_cant": "There is no end of locations, with blanks around them, other schemes and ports.", "anchors": ["pyslet/pyslet/rfc2616.py:HTTPRequest.Finished", "pyslet/pyslet/rfc2616.py:HTTPRequest.Resend", "pyslet/pyslet/rfc2616.py:HTTPResponse.GetLocation"]}
{"id": "C272", "title": "HTTP credentials that have worked are remembered", "statement": "After an exchange in which credentials were asked for and the request with them was answered with neither a redirect nor 401, a new request to the same server for a path that the first one covers is sent with these credentials at once.", "quantifier": "every list of credentials, every two requests and all responses of this kind", "why_tests_cant": "It joins two requests with any URLs through the state of the manager.", "anchors": ["pyslet/pyslet/rfc2616.py:HTTPRequest.Finished", "pyslet/pyslet/rfc2616.py:HTTPRequestManager.FindCredentialsByURL", "pyslet/pyslet/rfc2617.py:BasicCredentials.AddSuccessPath", "pyslet/pyslet/rfc2617.py:BasicCredentials.TestURL"]}
{"id": "C273", "title": "A deletion leaves everything else alone", "statement": "After a deletion without an exception every entity that does not depend on the deleted one, through links that it must not be without, is in the database with its data, with its foreign keys to what does not depend on it, and with its links to others.", "quantifier": "every model, depth of dependent entities, key, database", "why_tests_cant": "cascades of any depth", "anchors": ["pyslet/pyslet/odata2/sqlds.py: SQLEntityCollection.DeleteEntity", "pyslet/pyslet/odata2/sqlds.py: SQLEntityCollection.ClearLinks", "pyslet/pyslet/odata2/sqlds.py: SQLAssociationCollection.ClearLinks"]}
{"id": "C274", "title": "With a counting token nobody overwrites what they have not seen", "statement": "If an entity type has a concurrency token of an integer type, which clients always select and never set, and keys are not used again after deletions, then every successful update is by a client that has seen what it overwrites, provided that client has not failed to update since it last saw an entity.", "quantifier": "every entity type, stored entities, number of clients and interleaving of reads, changes, updates, insertions and deletions, with failures of the driver", "why_tests_cant": "a lost update needs a particular interleaving of clients, and the token must tell apart all versions", "anchors": ["pyslet/pyslet/odata2/sqlds.py: SQLEntityCollection.UpdateEntity", "pyslet/pyslet/odata2/csdl.py: Entity.SetConcurrencyTokens"]}
{"id": "C275", "title": "An update repeated after a conflict does not overwrite what the client has not seen", "statement": "After a ConcurrencyError the same entity object cannot be written over the changes of another client just by repeating the update.", "quantifier": "every interleaving of clients", "why_tests_cant": "needs a conflict followed by a retry of the same object", "anchors": ["pyslet/pyslet/odata2/sqlds.py: SQLEntityCollection.UpdateEntity"]}
{"id": "C276", "title": "Tokens tell apart an entity and another that took its key", "statement": "An entity read before its deletion cannot be written over a new entity inserted with the same key.", "quantifier": "every interleaving of clients with deletions", "why_tests_cant": "needs a deletion and an insertion between a read and an update", "anchors": ["pyslet/pyslet/odata2/sqlds.py: SQLEntityCollection.InsertEntitySQL", "pyslet/pyslet/odata2/csdl.py: Entity.SetConcurrencyTokens"]}
{"id": "C277", "title": "Clients that select the tokens are safe from clients that do not", "statement": "A client that always selects the tokens never overwrites a change it has not seen, even if other clients update with a selection that leaves the tokens out.", "quantifier": "every interleaving of clients and every selection", "why_tests_cant": "needs two clients with different selections", "anchors": ["pyslet/pyslet/odata2/sqlds.py: SQLCollectionMixin.FieldGenerator", "pyslet/pyslet/odata2/sqlds.py: SQLEntityCollection.UpdateEntity"]}
{"id": "C278", "title": "Whoever is up to date can update", "statement": "With tokens that can be advanced (integers below the largest, texts and bytes, not NULL), selected and never set by clients, an update by a client that has seen what is stored and has not failed since succeeds, also several times in a row.", "quantifier": "every entity type with any number of tokens, every history", "why_tests_cant": "a spurious conflict needs a token in the entity that differs from the stored one after some history", "anchors": ["pyslet/pyslet/odata2/sqlds.py: SQLEntityCollection.UpdateEntity", "pyslet/pyslet/odata2/csdl.py: Entity.SetConcurrencyTokens"]}
{"id": "C279", "title": "An entity that was just read can be updated, whatever its token", "statement": "A read followed at once by an update succeeds for every stored value of the token.", "quantifier": "every stored value", "why_tests_cant": "only particular stored values show it", "anchors": ["pyslet/pyslet/odata2/sqlds.py: SQLEntityCollection.UpdateEntity", "pyslet/pyslet/odata2/csdl.py: Entity.SetConcurrencyTokens"]}
{"id": "C280", "title": "Tokens may be times and GUIDs", "statement": "Entities with a token of type DateTime, DateTimeOffset or Guid can be inserted and updated, as the documentation of SetConcurrencyTokens says.", "quantifier": "every entity type with such a token, every entity", "why_tests_cant": "the branch is only reached with such an entity type", "anchors": ["pyslet/pyslet/odata2/csdl.py: Entity.SetConcurrencyTokens"]}
{"id": "C281", "title": "With a token that is a hash nobody overwrites what they have not seen", "statement": "The same as C274 for tokens of type String or Binary, which hold a hash of the values.", "quantifier": "every hash function, every interleaving", "why_tests_cant": "needs two different values with the same hashed text", "anchors": ["pyslet/pyslet/odata2/csdl.py: Entity.GenerateConcurrencyHash"]}
{"id": "C282", "title": "The store in memory keeps clients from overwriting what they have not seen", "statement": "The same as C274 for the store in memory.", "quantifier": "every interleaving", "why_tests_cant": "a lost update needs a particular interleaving", "anchors": ["pyslet/pyslet/odata2/memds.py: EntityCollection.UpdateEntity", "pyslet/pyslet/odata2/memds.py: InMemoryEntityStore.UpdateEntity"]}
{"id": "C283", "title": "An update changes the selected properties and the tokens, and nothing else", "statement": "A successful update stores the selected properties of the entity and its new tokens, succeeds only if the entity has the stored tokens, leaves properties that are not selected and all other entities alone; a failed one changes nothing that is stored.", "quantifier": "every entity type, selection and stored data", "why_tests_cant": "depends on selection, key and tokens together", "anchors": ["pyslet/pyslet/odata2/sqlds.py: SQLEntityCollection.UpdateEntity", "pyslet/pyslet/odata2/sqlds.py: SQLCollectionMixin.FieldGenerator"]}
{"id": "C284", "title": "What is read from entities is what they stand for", "statement": "Whenever reading a text with references to internal general entities succeeds, the text is the one in which every reference is replaced by what the text of its entity stands for, through all levels.", "quantifier": "all declarations of entities, all texts of characters and references, all lengths of reading", "why_tests_cant": "Entities nest without limit and share a stack with what is open; examples cover few shapes.", "anchors": ["pyslet/pyslet/xml20081126/parser.py: XMLParser.NextChar, PushEntity, ParseReference, ParseEntityRef", "pyslet/pyslet/xml20081126/structures.py: XMLEntity.Close, XMLDeclaredEntity.Open"]}
{"id": "C285", "title": "Declared entities without cycles are read", "statement": "If all entities that are referred to are declared, have some text, and none contains itself at any depth, every text with references to them is read to its end and is never taken for recursion.", "quantifier": "all acyclic declarations without empty texts, all texts", "why_tests_cant": "The open flags of entities must be right at every depth and after every ending.", "anchors": ["pyslet/pyslet/xml20081126/parser.py: XMLParser.PushEntity, ParseEntityRef", "pyslet/pyslet/xml20081126/structures.py: XMLEntity.IsOpen"]}
{"id": "C286", "title": "Empty entities are read", "statement": "Entities with an empty text can be referred to like any others, any number of times.", "quantifier": "all acyclic declarations, all texts", "why_tests_cant": "The second reference to the same empty entity has to be tried.", "anchors": ["pyslet/pyslet/xml20081126/parser.py: XMLParser.PushEntity", "pyslet/pyslet/xml20081126/structures.py: XMLDeclaredEntity.Open"]}
{"id": "C287", "title": "Recursive entities are rejected", "statement": "A text with a reference to an entity that contains itself, directly or through others, is rejected with an error after finitely many steps.", "quantifier": "all declarations of finitely many entities, all texts that stand for nothing", "why_tests_cant": "That reading never ends cannot be observed; cycles have all lengths and shapes.", "anchors": ["pyslet/pyslet/xml20081126/parser.py: XMLParser.NextChar, ParseEntityRef"]}
{"id": "C288", "title": "Reading ends if no entity ends with a reference", "statement": "If no text of a declared entity ends with a reference, reading any text ends, recursive or not, within the length of the text times a power of the longest text of an entity.", "quantifier": "all declarations of finitely many entities whose texts do not end with a reference, all texts", "why_tests_cant": "Termination for every graph of references.", "anchors": ["pyslet/pyslet/xml20081126/parser.py: XMLParser.NextChar, PushEntity, ParseEntityRef"]}
{"id": "C289", "title": "The text read is bounded by what was written", "statement": "The number of characters that a document yields is bounded by a linear function of its size and that of its declarations.", "quantifier": "all numbers of declarations", "why_tests_cant": "Growth of nested declarations is exponential in their number only for chosen declarations.", "anchors": ["pyslet/pyslet/xml20081126/parser.py: XMLParser.ParseEntityRef"]}
{"id": "C290", "title": "Simple values survive JSON", "statement": "A Boolean, Byte, SByte, Int16, Int32, Binary or String value in the range of its type, a value whose literal is written as a string, and null are read from the JSON written for them as they were.", "quantifier": "all values of these types, given that base64 and the literals of the types are read as written", "why_tests_cant": "Every value of every type has to survive.", "anchors": ["pyslet/pyslet/odata2/core.py: EntityPropertyValueInJSON, ReadEntityPropertyValueInJSON", "pyslet/pyslet/odata2/csdl.py: SetFromValue, SetFromLiteral"]}
{"id": "C291", "title": "Entities survive JSON", "statement": "The JSON written for an entity, read into an entity of the same type, gives the same values of all properties, with complex values nested to any depth, whatever the entity held before and whatever links are written after the properties.", "quantifier": "all entities with different names of properties whose simple values survive JSON, all depths of complex values, all links", "why_tests_cant": "Nesting and the number of properties are unbounded.", "anchors": ["pyslet/pyslet/odata2/core.py: Entity.GenerateEntityTypeInJSON, Entity.SetFromJSONObject, EntityCTBody, EntityCTValueToJSON, ReadEntityCTValue"]}
{"id": "C292", "title": "DateTime values survive JSON", "statement": "The JSON written for a DateTime value with thousandths of a second is read as the same point in time.", "quantifier": "all days of the calendar and all times of the day", "why_tests_cant": "Ticks before 1970 are negative; faults occur in single seconds of the minute.", "anchors": ["pyslet/pyslet/odata2/core.py: EntityPropertyValueInJSON, ReadEntityPropertyValueInJSON", "pyslet/pyslet/odata2/csdl.py: SetFromValue, SetFromLiteral", "pyslet/pyslet/iso8601.py: Time.Offset, Time.GetTotalSeconds, Date.__init__"]}
{"id": "C293", "title": "DateTimeOffset values survive JSON", "statement": "DateTimeOffset values are written to JSON and read from it.", "quantifier": "all points in time, all texts", "why_tests_cant": "That no value and no text works needs all of them.", "anchors": ["pyslet/pyslet/odata2/core.py: EntityPropertyValueInJSON, ReadEntityPropertyValueInJSON", "pyslet/pyslet/odata2/csdl.py: SetFromValue, SetFromLiteral"]}
{"id": "C294", "title": "Ticks are read as the time they stand for", "statement": "Every text /Date(n)/ is refused, or read as the proper point in time n thousandths of a second after 1970.", "quantifier": "all integers", "why_tests_cant": "The range of ticks is unbounded.", "anchors": ["pyslet/pyslet/odata2/core.py: EntityPropertyValueInJSON, ReadEntityPropertyValueInJSON", "pyslet/pyslet/odata2/csdl.py: SetFromValue, SetFromLiteral", "pyslet/pyslet/iso8601.py: Time.Offset, Date.__init__"]}
{"id": "C295", "title": "What JSON sets belongs to the type of the property", "statement": "Whatever JSON value a client sends for a property that is not a string, it is refused, or the property holds null or a value in the range of its type.", "quantifier": "all types but strings, all JSON values", "why_tests_cant": "Clients may send anything.", "anchors": ["pyslet/pyslet/odata2/core.py: EntityPropertyValueInJSON, ReadEntityPropertyValueInJSON", "pyslet/pyslet/odata2/csdl.py: SetFromValue, SetFromLiteral"]}
{"id": "C296", "title": "JSON values of the wrong kind are refused", "statement": "A JSON value that is no string for a String, no whole number for an integer, and no truth value for a Boolean is refused.", "quantifier": "all types, all JSON values", "why_tests_cant": "Clients may send anything.", "anchors": ["pyslet/pyslet/odata2/core.py: EntityPropertyValueInJSON, ReadEntityPropertyValueInJSON", "pyslet/pyslet/odata2/csdl.py: SetFromValue, SetFromLiteral"]}
{"id": "C297", "title": "Reading an entity sets what the object has and clears the rest", "statement": "When an object is read into an entity, every property it names is set to what is read from it, and every other property becomes null.", "quantifier": "all entities, all objects", "why_tests_cant": "Objects may have any subset of the properties.", "anchors": ["pyslet/pyslet/odata2/core.py: Entity.SetFromJSONObject"]}
{"id": "C298", "title": "Complex properties may be left out", "statement": "Objects that lack a complex property, or have null for it, are accepted.", "quantifier": "all entities with complex properties, all objects", "why_tests_cant": "Each property has to be left out in turn, at each depth.", "anchors": ["pyslet/pyslet/odata2/core.py: Entity.SetFromJSONObject, ReadEntityCTValue", "pyslet/pyslet/odata2/csdl.py: Complex"]}
{"id": "C299", "title": "Links of new entities survive JSON", "statement": "The links to existing entities that are written with a new entity are read as links to these entities.", "quantifier": "all numbers of links, properties with one target and with many", "why_tests_cant": "Properties with one target and with many take different paths.", "anchors": ["pyslet/pyslet/odata2/core.py: Entity.GenerateEntityTypeInJSON, Entity.SetFromJSONObject"]}
{"id": "C300", "title": "Requests with a property store it", "statement": "A request that sets a property with a JSON body of the property's name and value stores the value.", "quantifier": "all names, all values that survive JSON, all former values", "why_tests_cant": "All values and depths.", "anchors": ["pyslet/pyslet/odata2/core.py: ReadEntityPropertyInJSON1, ReadEntityCTInJSON", "pyslet/pyslet/odata2/server.py: Server.ReadValue"]}
{"id": "C301", "title": "Bodies without the property or the entity are refused", "statement": "A JSON body that does not contain the property that is to be set, or any property of the entity that is to be set, is refused.", "quantifier": "all bodies, all entities", "why_tests_cant": "All possible bodies.", "anchors": ["pyslet/pyslet/odata2/core.py: ReadEntityPropertyInJSON1, Entity.SetFromJSONObject", "pyslet/pyslet/odata2/server.py: Server.ReadValue, Server.ReadEntity, Server.ReturnValue"]}
{"id": "C302", "title": "Setting a complex value to null clears all it holds", "statement": "After a complex value is set to null it has the properties it had, at any depth, and all of them are null.", "quantifier": "all complex values, all depths", "why_tests_cant": "The depth of complex values is unbounded.", "anchors": ["pyslet/pyslet/odata2/csdl.py: Complex.SetNull, SimpleValue.SetNull"]}
{"id": "C303", "title": "Copies of entities have their values", "statement": "A copy of an entity has the values of all properties of the entity that are not in its key; setting a complex value or an entity from another one gives it the values of the other.", "quantifier": "all types, all entities, all values", "why_tests_cant": "Every property of every entity has to be copied.", "anchors": ["pyslet/pyslet/odata2/csdl.py: EntityCollection.CopyEntity, Entity.SetFromEntity, Complex.SetFromComplex"]}
{"id": "C304", "title": "A client that reads page by page gets every entity once", "statement": "Reading page after page through the client gives the entities of the collection from the place that was set on, in order and each of them once, in pages of the smaller one of the size asked for and the size the server allows.", "quantifier": "all collections, all sizes of pages, all limits of the server, all places, all numbers of pages", "why_tests_cant": "Sizes and numbers of pages are unbounded, and the client mixes tokens and numbers to skip.", "anchors": ["pyslet/pyslet/odata2/client.py: ClientCollection.iterpage, ClientCollection.SetPage"]}
{"id": "C305", "title": "Answers in JSON are complete", "statement": "An answer in JSON to a request for a collection has all entities of the page that was asked for, no link to a next page, and the number of all entities of the collection exactly if it was asked for.", "quantifier": "all collections, all pages, all versions", "why_tests_cant": "Sizes of collections are unbounded.", "anchors": ["pyslet/pyslet/odata2/core.py: EntityCollection.GenerateEntitySetInJSON, GenerateLinkCollJSON", "pyslet/pyslet/odata2/server.py: Server.ReturnEntityCollection"]}
{"id": "C306", "title": "No answer has more entities than the server allows", "statement": "The server sends no more entities with one answer than its limit, in XML and in JSON.", "quantifier": "all collections, all requests", "why_tests_cant": "Sizes of collections are unbounded.", "anchors": ["pyslet/pyslet/odata2/server.py: Server.ReturnEntityCollection, Server.topmax"]}
{"id": "C307", "title": "Links are paged", "statement": "A request for links with a number to skip, a number to get or a count is answered accordingly, in XML and in JSON.", "quantifier": "all numbers of links, all pages", "why_tests_cant": "Sizes of collections are unbounded.", "anchors": ["pyslet/pyslet/odata2/server.py: Server.ReturnLinks"]}
{"id": "C308", "title": "Names with prefixes are read as what they mean", "statement": "For every document that has a meaning under the recommendation on namespaces in XML, in which no default namespace is removed and names that begin with xmlns are only used for declarations, the tree that is read has the namespaces, local names, attributes and children that the document means.", "quantifier": "all trees of tags of any depth, with any declarations of prefixes and default namespaces that hide each other, and any attributes", "why_tests_cant": "What a prefix stands for depends on all the elements around it; tests use one or two levels.", "anchors": ["pyslet/pyslet/xmlnames20091208.py: ExpandQName, ParseNSAttributes, GetSTagClass, GetNS"]}
{"id": "C309", "title": "What is written for a tree means that tree", "statement": "For every tree whose elements have namespaces and whose attributes have none or have namespaces that no element has, what is written means the tree under the recommendation on namespaces: all prefixes are declared, none stands for two namespaces where it is used, and no attribute is written twice.", "quantifier": "all trees of elements of any depth, with any declarations kept from reading or made by programs, and any declarations of the document", "why_tests_cant": "Declarations are made while the tree is written and hide those outside; which prefix is free depends on all elements around.", "anchors": ["pyslet/pyslet/xmlnames20091208.py: GenerateXML, WriteXMLAttributes, WriteNSAttributes, GetPrefix, MakePrefix, NewPrefix, GetPrefixMap"]}
{"id": "C310", "title": "Trees made by programs can be written and are read again as they were", "statement": "For every tree made by a program, whose elements have namespaces and whose attributes have none or have namespaces that no element has, writing succeeds, and reading what was written gives the same namespaces, names, attributes and children.", "quantifier": "all such trees of any depth and any declarations of the document", "why_tests_cant": "Writing and reading have to agree for all combinations of namespaces.", "anchors": ["pyslet/pyslet/xmlnames20091208.py: GenerateXML, NewPrefix, ExpandQName, ParseNSAttributes"]}
{"id": "C311", "title": "A new prefix is always found", "statement": "The search for an unused prefix ends, with a prefix that is not declared on the element or around it.", "quantifier": "all declarations of an element and of the elements around it, any number of them in any order", "why_tests_cant": "The search has no bound of its own.", "anchors": ["pyslet/pyslet/xmlnames20091208.py: NewPrefix"]}
{"id": "C312", "title": "A default namespace can be removed", "statement": "Inside an element with an empty declaration of the default namespace, elements without prefix have no namespace.", "quantifier": "all documents with such declarations", "why_tests_cant": "It depends on declarations at every depth.", "anchors": ["pyslet/pyslet/xmlnames20091208.py: GetNS, ExpandQName"]}
{"id": "C313", "title": "Documents without meaning under the recommendation are not accepted", "statement": "Tags with prefixes that are not declared, and tags with two attributes of the same namespace and local name, raise an error.", "quantifier": "all such tags", "why_tests_cant": "The second case depends on what all prefixes stand for.", "anchors": ["pyslet/pyslet/xmlnames20091208.py: ExpandQName, ParseNSAttributes"]}
{"id": "C314", "title": "Attributes are only removed if they are declarations", "statement": "All attributes that are not declarations of namespaces are kept, whatever their names.", "quantifier": "all names of attributes", "why_tests_cant": "Names are unbounded.", "anchors": ["pyslet/pyslet/xmlnames20091208.py: ParseNSAttributes"]}
{"id": "C315", "title": "Attributes and elements keep their namespaces when written", "statement": "For all trees, also those where an attribute is in the default namespace, or where an element without a namespace is inside one with a namespace, what is written means the tree.", "quantifier": "all trees of elements", "why_tests_cant": "Which default namespace is in force depends on all elements around.", "anchors": ["pyslet/pyslet/xmlnames20091208.py: GetPrefix, GenerateXML"]}
{"id": "C316", "title": "Documents that were read can be written", "statement": "For every document that was read, writing succeeds.", "quantifier": "all documents, with any declarations that hide each other", "why_tests_cant": "It depends on which of several prefixes for a namespace is remembered and where it is declared again.", "anchors": ["pyslet/pyslet/xmlnames20091208.py: GetPrefix, MakePrefix, SetAttribute"]}
{"id": "C317", "title": "Documents that were read and written again mean the same", "statement": "For every document with a meaning, in which no tag declares two prefixes for one namespace, reading succeeds, writing succeeds, and, if the namespaces of elements and of attributes are kept apart, what is written means the same tree.", "quantifier": "all documents of any depth, with prefixes and default namespaces that are declared again inside", "why_tests_cant": "Prefixes that hide each other at any depth.", "anchors": ["pyslet/pyslet/xmlnames20091208.py: GenerateXML, GetPrefix, SetAttribute, ExpandQName"]}
{"id": "C318", "title": "No nonce is accepted twice within 90 minutes", "statement": "In every history of checks by a consumer under a clock that does not go back, a nonce is reported exactly if a check of the same nonce in the 90 minutes before was not reported; so two checks of a nonce that are both accepted are more than 90 minutes apart.", "quantifier": "all histories of checks of any length, with any nonces and times that do not decrease", "why_tests_cant": "It must hold after every history of trimming and adding.", "anchors": ["pyslet/pyslet/imsbltiv1p0.py: CheckNonce"]}
{"id": "C319", "title": "Memory for nonces does not grow with the history", "statement": "After every history under a clock that does not go back, only nonces are kept that were accepted within the 90 minutes before the last check.", "quantifier": "all histories of checks", "why_tests_cant": "Unbounded histories.", "anchors": ["pyslet/pyslet/imsbltiv1p0.py: CheckNonce"]}
{"id": "C320", "title": "A nonce that was checked in the last 90 minutes is reported", "statement": "Every check of a nonce that was checked in the 90 minutes before is reported, also if the earlier check was itself reported and also if the clock is set back.", "quantifier": "all histories of checks and clocks", "why_tests_cant": "It depends on the order of checks and changes of the clock.", "anchors": ["pyslet/pyslet/imsbltiv1p0.py: CheckNonce"]}
{"id": "C321", "title": "Keys have at least the number of bits that is asked for", "statement": "For every length, the generated key can be any of two to the power of that many texts.", "quantifier": "all lengths", "why_tests_cant": "The number of possible keys cannot be counted by tests.", "anchors": ["pyslet/pyslet/imsbltiv1p0.py: GenerateKey"]}
{"id": "C322", "title": "Different random bytes give different keys", "statement": "For every length, generated keys are equal only if the random bytes were; keys of the default length have 128 bits.", "quantifier": "all lengths and bytes", "why_tests_cant": "The space of keys is too large to test.", "anchors": ["pyslet/pyslet/imsbltiv1p0.py: GenerateKey"]}
{"id": "C323", "title": "A consumer with a given key is added and no other is changed", "statement": "Adding a consumer with a key that is used raises an exception; otherwise the consumer can be looked up and all others are as they were.", "quantifier": "all dictionaries of consumers, keys and random bytes", "why_tests_cant": "All dictionaries and keys.", "anchors": ["pyslet/pyslet/imsbltiv1p0.py: NewConsumer, lookup_consumer"]}
{"id": "C324", "title": "A generated key never replaces a consumer", "statement": "Adding a consumer with a generated key raises an exception or leaves all others as they were.", "quantifier": "all dictionaries and random bytes", "why_tests_cant": "Coincidences of random bytes do not occur in tests.", "anchors": ["pyslet/pyslet/imsbltiv1p0.py: NewConsumer"]}
{"id": "C325", "title": "Saved consumers are loaded again", "statement": "For all consumers whose keys and secrets have no white space and are not empty, and whose keys do not begin with #, loading what was saved gives the same secrets for the same keys, in whatever order they are written; generated keys and secrets are such.", "quantifier": "all dictionaries of any size, in any order", "why_tests_cant": "All texts and sizes.", "anchors": ["pyslet/pyslet/imsbltiv1p0.py: LoadFromFile, SaveToFile, GenerateKey"]}
{"id": "C326", "title": "All consumers that can be added are loaded again", "statement": "Loading what was saved gives the same consumers, whatever keys they were added with.", "quantifier": "all keys", "why_tests_cant": "Keys are unbounded texts.", "anchors": ["pyslet/pyslet/imsbltiv1p0.py: LoadFromFile, SaveToFile, NewConsumer"]}
{"id": "C327", "title": "Loading a file that fails changes nothing", "statement": "If loading raises an exception, the consumers are as they were before.", "quantifier": "all files and dictionaries", "why_tests_cant": "It depends on the line at which the exception occurs.", "anchors": ["pyslet/pyslet/imsbltiv1p0.py: LoadFromFile"]}
{"id": "C328", "title": "Data accepted for an ABNF rule start with a string of it", "statement": "If ValidateData returns for the name of a rule and some data, the data start with a string that the rule describes according to RFC 2234.", "quantifier": "all grammars in which alternatives are not empty and repetitions have no more at least than at most, all names, all data, any order in which parsers are tried", "why_tests_cant": "Grammars nest and recurse without bound and the search may take any number of turns.", "anchors": ["pyslet/pyslet/rfc2234.py: RFC2234ABNFRuleBase.ValidateData"]}
{"id": "C329", "title": "Strings of an ABNF rule are not refused", "statement": "ValidateData does not refuse data that are a string of the rule, in particular not data that GenerateData gave for it.", "quantifier": "all grammars, rules and strings of them", "why_tests_cant": "The search tries alternatives in an order that depends on grammar and data.", "anchors": ["pyslet/pyslet/rfc2234.py: RFC2234ABNFRuleBase.ValidateData, GenerateData"]}
{"id": "C330", "title": "Generated data are strings of the rule", "statement": "Whatever random numbers are taken, what GenerateData returns for a rule is a string that the rule describes.", "quantifier": "all grammars, rules, limits and sequences of random numbers", "why_tests_cant": "Random choices can be made in infinitely many ways.", "anchors": ["pyslet/pyslet/rfc2234.py: RFC2234ABNFRuleBase.GenerateData"]}
{"id": "C331", "title": "Adding a rule to a grammar changes no other", "statement": "AddRule returns the number of a rule with the definition that was given; rules and names that existed keep their definitions.", "quantifier": "all grammars and definitions", "why_tests_cant": "Grammars are unbounded.", "anchors": ["pyslet/pyslet/rfc2234.py: RFC2234ABNFRuleBase.AddRule"]}
{"id": "C332", "title": "A name means the rule it was defined as", "statement": "After DefineRule for a new or declared name, the name in any case and the earlier references to it have exactly the strings of the rule it was defined as, and other names are unchanged.", "quantifier": "all grammars, names and rules", "why_tests_cant": "It must hold for every grammar and every string, also for recursive rules.", "anchors": ["pyslet/pyslet/rfc2234.py: RFC2234ABNFRuleBase.DefineRule, DeclareRule, GetRuleID"]}
{"id": "C333", "title": "Alternatives can be added to a name", "statement": "After an incremental definition (=/) the name, in any case and wherever it is used, has the strings that it had and those of the rule that was added.", "quantifier": "all grammars, names and rules", "why_tests_cant": "It depends on the history of definitions.", "anchors": ["pyslet/pyslet/rfc2234.py: RFC2234ABNFRuleBase.DefineRule"]}
{"id": "C334", "title": "Rules may be defined in any order", "statement": "A name that is defined as another name has the strings of the other, also when the other is defined later.", "quantifier": "all orders of definitions", "why_tests_cant": "There are unboundedly many histories of definitions.", "anchors": ["pyslet/pyslet/rfc2234.py: RFC2234ABNFRuleBase.DeclareRule, DefineRule"]}
{"id": "C335", "title": "Data that do not match a rule are reported as invalid", "statement": "When data are no string of the rule, ValidateData raises the error for data that are not valid.", "quantifier": "all grammars and data", "why_tests_cant": "It must hold for every mismatch at every place of a grammar.", "anchors": ["pyslet/pyslet/rfc2234.py: RFC2234ABNFRuleBase.ValidateData", "pyslet/pyslet/rfc2234.py: RFCValidityError"]}
{"id": "C336", "title": "Data accepted for a rule are a string of it as a whole", "statement": "If ValidateData returns, all of the data and not only their start are a string of the rule.", "quantifier": "all grammars and data", "why_tests_cant": "What follows the start is any text.", "anchors": ["pyslet/pyslet/rfc2234.py: RFC2234ABNFRuleBase.ValidateData"]}
{"id": "C337", "title": "Validation of data ends", "statement": "ValidateData returns or raises an exception for every grammar and all data.", "quantifier": "all grammars without left recursion, and data", "why_tests_cant": "An endless run is not observed by any finite test.", "anchors": ["pyslet/pyslet/rfc2234.py: RFC2234ABNFRuleBase.ValidateData"]}
{"id": "C338", "title": "Parsing a file is parsing a string with its contents", "statement": "Whatever calls are made, a parser of a file shows the same characters, line numbers and positions as a parser of a string with the contents of the file, in whatever pieces the file is read; the characters are those of the contents in order.", "quantifier": "all contents, all ways in which reading splits them, all sequences of calls including saving and going back", "why_tests_cant": "The buffer is dropped or kept depending on the history of calls, and its ends can be anywhere.", "anchors": ["pyslet/pyslet/rfc2234.py: RFC2234Parser.ResetParser, NextChar, NextLine, PushParser, PopParser"]}
{"id": "C339", "title": "A parser that goes back forgets what it tried", "statement": "After PushParser, any calls, and PopParser(1), all later calls show what they would have shown without these calls, also when more of a file was read meanwhile and other states were saved and left.", "quantifier": "all contents, pieces, and sequences of calls before, between and after", "why_tests_cant": "Attempts nest without bound and cross the ends of buffers anywhere.", "anchors": ["pyslet/pyslet/rfc2234.py: RFC2234Parser.PushParser, PopParser, NextChar"]}
{"id": "C340", "title": "Texts of grammars can be read", "statement": "ParseRulelist accepts the text of every grammar of RFC 2234 and defines its rules.", "quantifier": "all texts of grammars", "why_tests_cant": "Texts and the nesting of their elements are unbounded.", "anchors": ["pyslet/pyslet/rfc2234.py: RFC2234ABNFParser.ParseRulelist, ParseRule, ParseAlternation, ParseConcatenation", "pyslet/pyslet/rfc2234.py: RFCSyntaxError, RFC2234Error"]}
{"id": "C341", "title": "Values of enumerations survive writing and reading", "statement": "EncodeValue gives the name of a value in the declaration, and DecodeValue of that name, with any white space around it, gives the value, whatever aliases and default were declared.", "quantifier": "all enumerations with distinct names and values, all aliases that are not names, all values", "why_tests_cant": "Enumerations are declared by users; declarations are unbounded.", "anchors": ["pyslet/pyslet/xsdatatypes20041028.py: Enumeration, MakeEnumeration, MakeEnumerationAliases, MakeLowerAliases"]}
{"id": "C342", "title": "Names are read in any case", "statement": "After MakeLowerAliases, DecodeLowerValue reads a string as a value if and only if the string is one of the names or aliases of that value, up to case and white space around it.", "quantifier": "all enumerations in which names that differ only in case have the same value, all strings", "why_tests_cant": "All mixtures of cases of all names.", "anchors": ["pyslet/pyslet/xsdatatypes20041028.py: Enumeration.DecodeLowerValue, MakeLowerAliases"]}
{"id": "C343", "title": "Lists of values survive writing and reading", "statement": "DecodeValueList of what EncodeValueList wrote gives the list, with its order and repetitions.", "quantifier": "all enumerations with distinct names that are words, all lists of values", "why_tests_cant": "Lists are unbounded.", "anchors": ["pyslet/pyslet/xsdatatypes20041028.py: Enumeration.EncodeValueList, DecodeValueList"]}
{"id": "C344", "title": "Dictionaries of values have all values that were read", "statement": "DecodeValueDict gives a dictionary with every value of the string; for an empty string it is empty.", "quantifier": "all enumerations and strings", "why_tests_cant": "Strings have any number of values.", "anchors": ["pyslet/pyslet/xsdatatypes20041028.py: Enumeration.DecodeValueDict"]}
{"id": "C345", "title": "Equal dictionaries of values are written alike", "statement": "EncodeValueDict writes the same text for dictionaries with the same values, whatever the order of their keys.", "quantifier": "all enumerations, all dictionaries in all orders", "why_tests_cant": "Orders of dictionaries cannot be enumerated by tests.", "anchors": ["pyslet/pyslet/xsdatatypes20041028.py: Enumeration.EncodeValueDict"]}
{"id": "C346", "title": "Strings that are no names are a ValueError", "statement": "DecodeValue, DecodeLowerValue and DecodeUpperValue raise no other exception than ValueError.", "quantifier": "all enumerations and strings", "why_tests_cant": "All strings.", "anchors": ["pyslet/pyslet/xsdatatypes20041028.py: Enumeration.DecodeValue, DecodeLowerValue, DecodeUpperValue"]}
{"id": "C347", "title": "Strings that are no titles are a ValueError", "statement": "DecodeTitleValue raises no other exception than ValueError.", "quantifier": "all enumerations and strings", "why_tests_cant": "All strings.", "anchors": ["pyslet/pyslet/xsdatatypes20041028.py: Enumeration.DecodeTitleValue"]}
{"id": "C348", "title": "Only values of the enumeration are written", "statement": "EncodeValue writes the default for None only; a number that is no value is not written as if it were one.", "quantifier": "all enumerations with defaults, all numbers", "why_tests_cant": "All numbers outside the enumeration.", "anchors": ["pyslet/pyslet/xsdatatypes20041028.py: Enumeration.EncodeValue"]}
{"id": "C349", "title": "Reads give the next bytes of the body", "statement": "After any reads and any seeks in the first seekSize bytes, read(n) of an InputWrapper gives the bytes of the body that follow tell(), at most n, none only for n=0 or at the end of the body, and tell() grows by their number.", "quantifier": "all bodies, content lengths (or none), buffer sizes, histories of reads and seeks, and all ways in which the stream splits its data", "why_tests_cant": "Histories and splits of the stream are unbounded.", "anchors": ["pyslet/pyslet/rfc5023.py: InputWrapper.__init__, read, seek, tell"]}
{"id": "C350", "title": "Reading all gives the whole body", "statement": "readall() gives all bytes of the body from tell() on, however short the reads of the stream are.", "quantifier": "all bodies, content lengths, buffer sizes, histories and splits", "why_tests_cant": "Sockets split data at will.", "anchors": ["pyslet/pyslet/rfc5023.py: InputWrapper.readall"]}
{"id": "C351", "title": "Nothing behind the body is taken from the stream", "statement": "An InputWrapper with a content length takes no byte behind the body from the stream, so that the next request on the connection is intact.", "quantifier": "all bodies, all data behind them, all histories of reads and of seeks in the buffer, all splits", "why_tests_cant": "One read too many blocks the server for ever.", "anchors": ["pyslet/pyslet/rfc5023.py: InputWrapper.__init__, read"]}
{"id": "C352", "title": "Bodies can be read again from the start", "statement": "While no more than seekSize bytes were read, seek() to any earlier place succeeds and everything from there on is read again; later it is an IOError.", "quantifier": "all histories, bodies, buffer sizes and places", "why_tests_cant": "All histories.", "anchors": ["pyslet/pyslet/rfc5023.py: InputWrapper.seek, seekable, readall"]}
{"id": "C353", "title": "Lines are read with their line feeds", "statement": "readline(limit) gives the rest of the current line with its line feed, cut at the limit, and goes behind it.", "quantifier": "all bodies, histories and limits", "why_tests_cant": "All bodies in all splits.", "anchors": ["pyslet/pyslet/rfc5023.py: InputWrapper.readline"]}
{"id": "C354", "title": "All lines can be read", "statement": "readlines() and the iterator end with the last line of the body.", "quantifier": "all bodies", "why_tests_cant": "Whether a loop ends cannot be tested.", "anchors": ["pyslet/pyslet/rfc5023.py: InputWrapper.readlines, __iter__"]}
{"id": "C355", "title": "Blocks are no longer than asked for", "statement": "iterblocks(maxSize) gives the rest of the body in blocks of at most maxSize bytes.", "quantifier": "all bodies and sizes", "why_tests_cant": "All sizes.", "anchors": ["pyslet/pyslet/rfc5023.py: InputWrapper.iterblocks"]}
{"id": "C356", "title": "Seeking forward skips that many bytes", "statement": "After seek(p) within the body, the bytes that are read are those from p on.", "quantifier": "all bodies, places and splits", "why_tests_cant": "Depends on how the stream splits its data.", "anchors": ["pyslet/pyslet/rfc5023.py: InputWrapper.seek"]}
{"id": "C357", "title": "Seeking behind the end is harmless", "statement": "After seek() behind the end of the body, reads give nothing and take nothing from the stream.", "quantifier": "all bodies, places and splits", "why_tests_cant": "Depends on how the stream splits its data.", "anchors": ["pyslet/pyslet/rfc5023.py: InputWrapper.seek, read"]}
{"id": "C358", "title": "Entries that are reset are like new", "statement": "Reset() of an entry leaves the id, a new title and a new date, which belong to the entry, and nothing else; it does not fail.", "quantifier": "all entries with all combinations of children", "why_tests_cant": "All combinations of children.", "anchors": ["pyslet/pyslet/rfc4287.py: Entry.Reset, Entry.GetChildren, Entity.Reset"]}
{"id": "C359", "title": "Feeds that are reset are empty", "statement": "Reset() of a feed leaves no entries and no date; all remaining children belong to the feed.", "quantifier": "all feeds", "why_tests_cant": "All combinations of children.", "anchors": ["pyslet/pyslet/rfc4287.py: Entity.Reset, Feed.GetChildren"]}
{"id": "C360", "title": "Types of contents survive writing and reading", "statement": "DecodeContentType of what EncodeContentType wrote is the type, for types of texts and for media types.", "quantifier": "all types of texts and all media types (strings with a slash, without white space at the ends)", "why_tests_cant": "All media types.", "anchors": ["pyslet/pyslet/rfc4287.py: DecodeContentType, EncodeContentType, TextType"]}
{"id": "C361", "title": "Values of contents of text can be read", "statement": "GetValue() of a content of text gives its text.", "quantifier": "all contents of text", "why_tests_cant": "All contents.", "anchors": ["pyslet/pyslet/rfc4287.py: Content.GetValue"]}
{"id": "C362", "title": "Paths are split into what they were joined from", "statement": "split() of a path gives as tail its last component, which is a single one or empty; joining head and tail gives the path again, if there are no two slashes before the tail.", "quantifier": "all paths of POSIX systems", "why_tests_cant": "All paths.", "anchors": ["pyslet/pyslet/vfs.py: OSFilePath.split, join, IsSingleComponent"]}
{"id": "C363", "title": "Kinds of paths agree", "statement": "IsRoot says that a path is one or more slashes; roots are absolute, like directories and no single components; single components are neither absolute nor like directories; joining an absolute path gives it, joining another one keeps both.", "quantifier": "all paths of POSIX systems", "why_tests_cant": "All paths.", "anchors": ["pyslet/pyslet/vfs.py: OSFilePath.IsRoot, IsDirLike, IsSingleComponent, isabs, join"]}
{"id": "C364", "title": "Hooks are set exactly while they are used", "statement": "os.stat and open accept virtual paths exactly while some ZipHooks object was made and not unhooked.", "quantifier": "all histories in which nobody unhooks too often", "why_tests_cant": "Histories are unbounded and overlap.", "anchors": ["pyslet/pyslet/vfs.py: ZipHooks"]}
{"id": "C365", "title": "Unhooking twice is harmless", "statement": "A second Unhook() of an object (as by a with statement whose body unhooks) does not change what later users get.", "quantifier": "all histories", "why_tests_cant": "All histories.", "anchors": ["pyslet/pyslet/vfs.py: ZipHooks.Unhook, __exit__"]}
{"id": "C366", "title": "Hooks can be used by several threads", "statement": "While a thread uses hooks they are set, whatever other threads do.", "quantifier": "all schedules of threads that hook and unhook", "why_tests_cant": "Schedules.", "anchors": ["pyslet/pyslet/vfs.py: ZipHooks.__init__, Unhook"]}
{"id": "C367", "title": "Encodings of texts without marks are detected", "statement": "DetectEncoding of the first bytes of a text gives UTF-8, UTF-16 or UTF-32 with the order of bytes in which it was written, if the first characters are of Latin-1 and not special (UTF-8: no byte is 0, 254 or 255); the mark of UTF-8 and those of UTF-32 are recognised.", "quantifier": "all texts", "why_tests_cant": "All texts of all lengths.", "anchors": ["pyslet/pyslet/unicode5.py: DetectEncoding, MagicTable"]}
{"id": "C368", "title": "Encodings of texts with marks are detected", "statement": "DetectEncoding of a text in UTF-16 with a byte order mark gives UTF-16.", "quantifier": "all texts in UTF-16 with a mark", "why_tests_cant": "All texts.", "anchors": ["pyslet/pyslet/unicode5.py: DetectEncoding, MagicTable"]}
{"id": "C369", "title": "Bodies of requests are recognised and then read from the start", "statement": "Without a content type, a body in UTF-8 whose first character (behind line feeds, tabs and other controls) is < is read as XML, and one that starts with { or [ as JSON, from its first byte to its last, however the data arrive.", "quantifier": "all bodies, content lengths, buffer sizes that hold the controls and one more byte, and all ways in which the stream splits its data", "why_tests_cant": "All bodies in all splits.", "anchors": ["pyslet/pyslet/odata2/server.py: Server.ReadXMLOrJSON", "pyslet/pyslet/rfc5023.py: InputWrapper"]}
{"id": "C370", "title": "Spaces before XML and JSON do not matter", "statement": "A body that starts with a space is recognised by what follows the white space.", "quantifier": "all bodies in UTF-8 that start with a space", "why_tests_cant": "All bodies.", "anchors": ["pyslet/pyslet/odata2/server.py: Server.ReadXMLOrJSON"]}
{"id": "C371", "title": "Line feeds before XML do not matter", "statement": "However many line feeds and controls are before it, XML is recognised.", "quantifier": "all bodies in UTF-8", "why_tests_cant": "Depends on the size of the buffer.", "anchors": ["pyslet/pyslet/odata2/server.py: Server.ReadXMLOrJSON", "pyslet/pyslet/rfc5023.py: InputWrapper"]}
{"id": "C372", "title": "Marks of UTF-16 and UTF-32 in XML files are recognised", "statement": "Opening an XML file without an encoding finds UTF-16 or UTF-32 and the order of bytes by the mark, and the text starts behind the mark, whatever follows and however short the file is.", "quantifier": "all files with these marks", "why_tests_cant": "All contents behind the mark.", "anchors": ["pyslet/pyslet/xml20081126/structures.py: XMLEntity.AutoDetectEncoding, XMLEntity.MagicTable"]}
{"id": "C373", "title": "XML files without marks are recognised", "statement": "A file that starts with <? in UTF-16 or < in UTF-32 is recognised with its order of bytes; one that starts with < and a byte other than zero, and an empty one, is taken for UTF-8; no byte is skipped.", "quantifier": "all files of these kinds", "why_tests_cant": "All contents.", "anchors": ["pyslet/pyslet/xml20081126/structures.py: XMLEntity.AutoDetectEncoding, XMLEntity.MagicTable"]}
{"id": "C374", "title": "XML files in UTF-8 with a mark can be opened", "statement": "Opening an XML file with the mark of UTF-8 gives UTF-8 and the text behind the mark.", "quantifier": "all files with this mark", "why_tests_cant": "All contents behind the mark.", "anchors": ["pyslet/pyslet/xml20081126/structures.py: XMLEntity.AutoDetectEncoding, XMLEntity.MagicTable"]}
{"id": "C375", "title": "XML files in EBCDIC are recognised", "statement": "A file that starts with <?xm in EBCDIC is recognised.", "quantifier": "all such files", "why_tests_cant": "All contents.", "anchors": ["pyslet/pyslet/xml20081126/structures.py: XMLEntity.AutoDetectEncoding, XMLEntity.MagicTable"]}
{"id": "C376", "title": "An XML parser sees line feeds for all ends of lines, however the text arrives", "statement": "Moving through an open XML entity one character at a time yields the text with each carriage return, and each carriage return with its line feed, replaced by one line feed, and all other characters unchanged and in order, also when a read of the source ends between the carriage return and its line feed.", "quantifier": "all texts and all ways in which the source splits them into pieces", "why_tests_cant": "the pairs can be parted by the border of any piece, and the state that ignores line feeds is kept over reads", "anchors": ["pyslet/pyslet/xml20081126/structures.py: XMLEntity.NextChar, Reset"]}
{"id": "C377", "title": "Line numbers of XML entities count ends of lines", "statement": "The line number reported at a character is one more than the number of ends of lines up to and including it; a carriage return with its line feed counts once.", "quantifier": "all texts, all characters of them and all ways in which the source splits them into pieces", "why_tests_cant": "tests look at a few short documents read in one piece", "anchors": ["pyslet/pyslet/xml20081126/structures.py: XMLEntity.NextChar, NextLine, GetPositionStr"]}
{"id": "C378", "title": "Positions in lines of XML entities do not depend on the kind of end of line", "statement": "The position reported at the first character of a line is 1 whether the line before ends with a line feed, a carriage return, or both.", "quantifier": "all texts and all ways in which the source splits them into pieces", "why_tests_cant": "needs a comparison of the same text with different ends of lines", "anchors": ["pyslet/pyslet/xml20081126/structures.py: XMLEntity.NextChar, NextLine, GetPositionStr"]}
{"id": "C379", "title": "A byte order mark at the start of an XML entity in UTF-8 is passed", "statement": "After an entity in UTF-8 is opened or reset, a parser sees the text without one byte order mark at its start; a text without such a mark is seen from its first character, and marks that are not at the start are seen.", "quantifier": "all texts and all ways in which the source splits them into pieces", "why_tests_cant": "the mark can be the whole of the first piece, and what follows it can be anything, also the end of the text, an end of line or another mark", "anchors": ["pyslet/pyslet/xml20081126/structures.py: XMLEntity.Reset, NextChar"]}
