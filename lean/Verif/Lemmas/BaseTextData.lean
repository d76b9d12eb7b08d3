import Verif.Model.BaseText
import Verif.Spec.TextPatterns
import Verif.Lemmas.LitBytes

/-!
# The shipped texts of the base grammar as written entries (generated by `tools/gen_base_text.py`)
-/

set_option maxRecDepth 100000

namespace Verif.Base
open Verif Verif.Text Verif.Cardinality

def patternsData : List Entry :=
  [.pattern ⟨[], (bytes% "numbers"), [], [⟨(bytes% " "), false, (bytes% "NUMBERS")⟩], []⟩,
   .pattern ⟨(bytes% "\n"), (bytes% "underscore"), [], [⟨(bytes% " "), false, (bytes% "UNDERSCORE")⟩], []⟩,
   .pattern ⟨(bytes% "\n"), (bytes% "min_letters"), [], [⟨(bytes% " "), false, (bytes% "MIN_LETTERS")⟩], []⟩,
   .pattern ⟨(bytes% "\n"), (bytes% "maj_letters"), [], [⟨(bytes% " "), false, (bytes% "MAJ_LETTERS")⟩], []⟩,
   .pattern ⟨(bytes% "\n"), (bytes% "whitespace"), [], [⟨(bytes% " "), false, (bytes% "WHITESPACE")⟩], []⟩,
   .pattern ⟨(bytes% "\n"), (bytes% "everything_except_quotation"), [], [⟨(bytes% " "), true, (bytes% "QUOTATION")⟩], []⟩,
   .pattern ⟨(bytes% "\n"), (bytes% "single_line_comment"), [], [⟨(bytes% " "), false, (bytes% "TWO_SLASHES")⟩, ⟨(bytes% " "), true, (bytes% "EOF")⟩, ⟨(bytes% " "), false, (bytes% "EOF")⟩], []⟩,
   .pattern ⟨(bytes% "\n"), (bytes% "multi_line_comment"), [], [⟨(bytes% " "), false, (bytes% "SLASH_STAR")⟩, ⟨(bytes% " "), true, (bytes% "STAR_SLASH")⟩, ⟨(bytes% " "), false, (bytes% "STAR_SLASH")⟩], []⟩,
   .serie ⟨(bytes% "\n\n"), (bytes% "NUMBERS"), [], [((bytes% " "), (bytes% "$NUMBERS"))], []⟩,
   .serie ⟨(bytes% "\n"), (bytes% "QUOTATION"), [], [((bytes% " "), (bytes% "$QUOTATION"))], []⟩,
   .serie ⟨(bytes% "\n"), (bytes% "MIN_LETTERS"), [], [((bytes% " "), (bytes% "$MIN_LETTERS"))], []⟩,
   .serie ⟨(bytes% "\n"), (bytes% "MAJ_LETTERS"), [], [((bytes% " "), (bytes% "$MAJ_LETTERS"))], []⟩,
   .serie ⟨(bytes% "\n"), (bytes% "SLASH_STAR"), [], [((bytes% " "), (bytes% "$SLASH_STAR"))], []⟩,
   .serie ⟨(bytes% "\n"), (bytes% "STAR_SLASH"), [], [((bytes% " "), (bytes% "$STAR_SLASH"))], []⟩,
   .serie ⟨(bytes% "\n"), (bytes% "TWO_SLASHES"), [], [((bytes% " "), (bytes% "$TWO_SLASHES"))], []⟩,
   .serie ⟨(bytes% "\n"), (bytes% "UNDERSCORE"), [], [((bytes% " "), (bytes% "$UNDERSCORE"))], []⟩,
   .serie ⟨(bytes% "\n"), (bytes% "WHITESPACE"), [], [((bytes% " "), (bytes% "$WHITESPACE"))], []⟩,
   .serie ⟨(bytes% "\n"), (bytes% "EOF"), [], [((bytes% " "), (bytes% "$EOF"))], []⟩,
   .group ⟨(bytes% "\n\n"), (bytes% "$MIN_LETTERS"), [], (bytes% " "), [(bytes% "a"), (bytes% "b"), (bytes% "c"), (bytes% "d"), (bytes% "e"), (bytes% "f"), (bytes% "g"), (bytes% "h"), (bytes% "i"), (bytes% "j"), (bytes% "k"), (bytes% "l"), (bytes% "m"), (bytes% "n"), (bytes% "o"), (bytes% "p"), (bytes% "q"), (bytes% "r"), (bytes% "s"), (bytes% "t"), (bytes% "u"), (bytes% "v"), (bytes% "w"), (bytes% "x"), (bytes% "y"), (bytes% "z")], []⟩,
   .group ⟨(bytes% "\n"), (bytes% "$MAJ_LETTERS"), [], (bytes% " "), [(bytes% "A"), (bytes% "B"), (bytes% "C"), (bytes% "D"), (bytes% "E"), (bytes% "F"), (bytes% "G"), (bytes% "H"), (bytes% "I"), (bytes% "J"), (bytes% "K"), (bytes% "L"), (bytes% "M"), (bytes% "N"), (bytes% "O"), (bytes% "P"), (bytes% "Q"), (bytes% "R"), (bytes% "S"), (bytes% "T"), (bytes% "U"), (bytes% "V"), (bytes% "W"), (bytes% "X"), (bytes% "Y"), (bytes% "Z")], []⟩,
   .group ⟨(bytes% "\n"), (bytes% "$NUMBERS"), [], (bytes% " "), [(bytes% "0"), (bytes% "1"), (bytes% "2"), (bytes% "3"), (bytes% "4"), (bytes% "5"), (bytes% "6"), (bytes% "7"), (bytes% "8"), (bytes% "9")], []⟩,
   .group ⟨(bytes% "\n"), (bytes% "$SLASH_STAR"), [], (bytes% " "), [(bytes% "/*")], []⟩,
   .group ⟨(bytes% "\n"), (bytes% "$STAR_SLASH"), [], (bytes% " "), [(bytes% "*/")], []⟩,
   .group ⟨(bytes% "\n"), (bytes% "$QUOTATION"), [], (bytes% " "), [(bytes% "\"")], []⟩,
   .group ⟨(bytes% "\n"), (bytes% "$TWO_SLASHES"), [], (bytes% " "), [(bytes% "//")], []⟩,
   .group ⟨(bytes% "\n"), (bytes% "$UNDERSCORE"), [], (bytes% " "), [(bytes% "_")], []⟩,
   .group ⟨(bytes% "\n"), (bytes% "$WHITESPACE"), [], (bytes% " "), [(bytes% " "), (bytes% "\t"), (bytes% "\n")], []⟩,
   .group ⟨(bytes% "\n"), (bytes% "$EOF"), [], (bytes% " "), [(bytes% "\n")], []⟩]

def rulesData : List RuleT :=
  [⟨[], (bytes% "FIRST_LETTER"), .pattern ((bytes% " ")) [] [(bytes% "min_letters")] [] (.specific (.amount 1)) []⟩,
   ⟨(bytes% "\n"), (bytes% "MIN_MAJ_LETTERS"), .pattern ((bytes% " ")) [] [(bytes% "min_letters"), (bytes% "maj_letters")] [] .nonZeroMultiple []⟩,
   ⟨(bytes% "\n"), (bytes% "INT_PATTERN"), .pattern ((bytes% " ")) [] [(bytes% "numbers")] [] .nonZeroMultiple []⟩,
   ⟨(bytes% "\n"), (bytes% "KEYNAME_PATTERN"), .pattern ((bytes% " ")) [] [(bytes% "min_letters"), (bytes% "underscore")] [] .nonZeroMultiple []⟩,
   ⟨(bytes% "\n"), (bytes% "EVERYTHING_EXCEPT_QUOTATION"), .pattern ((bytes% " ")) [] [(bytes% "everything_except_quotation")] [] .nonZeroMultiple []⟩,
   ⟨(bytes% "\n"), (bytes% "COMMA"), .constant ((bytes% " ")) ((bytes% ",")) []⟩,
   ⟨(bytes% "\n"), (bytes% "OPEN_PARENTHESIS"), .constant ((bytes% " ")) ((bytes% "(")) []⟩,
   ⟨(bytes% "\n"), (bytes% "CLOSE_PARENTHESIS"), .constant ((bytes% " ")) ((bytes% ")")) []⟩,
   ⟨(bytes% "\n"), (bytes% "OPEN_BRACKET"), .constant ((bytes% " ")) ((bytes% "{")) []⟩,
   ⟨(bytes% "\n"), (bytes% "CLOSE_BRACKET"), .constant ((bytes% " ")) ((bytes% "}")) []⟩,
   ⟨(bytes% "\n"), (bytes% "OPEN_SQUARE_BRACKET"), .constant ((bytes% " ")) ((bytes% "[")) []⟩,
   ⟨(bytes% "\n"), (bytes% "CLOSE_SQUARE_BRACKET"), .constant ((bytes% " ")) ((bytes% "]")) []⟩,
   ⟨(bytes% "\n"), (bytes% "QUOTATION"), .constant ((bytes% " ")) ((bytes% "\"")) []⟩,
   ⟨(bytes% "\n"), (bytes% "MINUS"), .constant ((bytes% " ")) ((bytes% "-")) []⟩,
   ⟨(bytes% "\n"), (bytes% "COLON"), .constant ((bytes% " ")) ((bytes% ":")) []⟩,
   ⟨(bytes% "\n"), (bytes% "EQUAL"), .constant ((bytes% " ")) ((bytes% "=")) []⟩,
   ⟨(bytes% "\n"), (bytes% "DOT"), .constant ((bytes% " ")) ((bytes% ".")) []⟩,
   ⟨(bytes% "\n"), (bytes% "AND"), .constant ((bytes% " ")) ((bytes% "&")) []⟩,
   ⟨(bytes% "\n"), (bytes% "PIPE"), .constant ((bytes% " ")) ((bytes% "|")) []⟩,
   ⟨(bytes% "\n"), (bytes% "LESS"), .constant ((bytes% " ")) ((bytes% "<")) []⟩,
   ⟨(bytes% "\n"), (bytes% "MORE"), .constant ((bytes% " ")) ((bytes% ">")) []⟩,
   ⟨(bytes% "\n"), (bytes% "PLUS"), .constant ((bytes% " ")) ((bytes% "+")) []⟩,
   ⟨(bytes% "\n"), (bytes% "STAR"), .constant ((bytes% " ")) ((bytes% "*")) []⟩,
   ⟨(bytes% "\n"), (bytes% "DIV"), .constant ((bytes% " ")) ((bytes% "/")) []⟩,
   ⟨(bytes% "\n"), (bytes% "EXCLAMATION"), .constant ((bytes% " ")) ((bytes% "!")) []⟩,
   ⟨(bytes% "\n"), (bytes% "UNDERSCORE"), .constant ((bytes% " ")) ((bytes% "_")) []⟩,
   ⟨(bytes% "\n"), (bytes% "RIGHT_ARROW"), .constant ((bytes% " ")) ((bytes% "->")) []⟩,
   ⟨(bytes% "\n"), (bytes% "LEFT_ARROW"), .constant ((bytes% " ")) ((bytes% "<-")) []⟩,
   ⟨(bytes% "\n"), (bytes% "QUESTION_MARK"), .constant ((bytes% " ")) ((bytes% "?")) []⟩,
   ⟨(bytes% "\n"), (bytes% "BREAK"), .constant ((bytes% " ")) ((bytes% "break")) []⟩,
   ⟨(bytes% "\n"), (bytes% "CONTINUE"), .constant ((bytes% " ")) ((bytes% "continue")) []⟩,
   ⟨(bytes% "\n"), (bytes% "APPEND"), .constant ((bytes% " ")) ((bytes% "append")) []⟩,
   ⟨(bytes% "\n"), (bytes% "FOR"), .constant ((bytes% " ")) ((bytes% "for")) []⟩,
   ⟨(bytes% "\n"), (bytes% "LIST"), .constant ((bytes% " ")) ((bytes% "list")) []⟩,
   ⟨(bytes% "\n"), (bytes% "BOOL"), .constant ((bytes% " ")) ((bytes% "bool")) []⟩,
   ⟨(bytes% "\n"), (bytes% "INT"), .constant ((bytes% " ")) ((bytes% "int")) []⟩,
   ⟨(bytes% "\n"), (bytes% "UINT"), .constant ((bytes% " ")) ((bytes% "uint")) []⟩,
   ⟨(bytes% "\n"), (bytes% "FLOAT"), .constant ((bytes% " ")) ((bytes% "float")) []⟩,
   ⟨(bytes% "\n"), (bytes% "STRING"), .constant ((bytes% " ")) ((bytes% "string")) []⟩,
   ⟨(bytes% "\n"), (bytes% "HEIGHT"), .constant ((bytes% " ")) ((bytes% "8")) []⟩,
   ⟨(bytes% "\n"), (bytes% "SIXTEEN"), .constant ((bytes% " ")) ((bytes% "16")) []⟩,
   ⟨(bytes% "\n"), (bytes% "THIRTY_TWO"), .constant ((bytes% " ")) ((bytes% "32")) []⟩,
   ⟨(bytes% "\n"), (bytes% "SIXTY_FOUR"), .constant ((bytes% " ")) ((bytes% "64")) []⟩,
   ⟨(bytes% "\n"), (bytes% "TRUE"), .constant ((bytes% " ")) ((bytes% "true")) []⟩,
   ⟨(bytes% "\n"), (bytes% "FALSE"), .constant ((bytes% " ")) ((bytes% "false")) []⟩,
   ⟨(bytes% "\n"), (bytes% "IF"), .constant ((bytes% " ")) ((bytes% "if")) []⟩,
   ⟨(bytes% "\n"), (bytes% "IS_NULL_FUNC"), .constant ((bytes% " ")) ((bytes% "isNull")) []⟩,
   ⟨(bytes% "\n"), (bytes% "LOG_FUNC"), .constant ((bytes% " ")) ((bytes% "log")) []⟩,
   ⟨(bytes% "\n"), (bytes% "SINGLE_LINE_COMMENT"), .pattern ((bytes% " ")) [] [(bytes% "single_line_comment")] [] (.specific (.amount 1)) []⟩,
   ⟨(bytes% "\n"), (bytes% "MULTI_LINE_COMMENT"), .pattern ((bytes% " ")) [] [(bytes% "multi_line_comment")] [] (.specific (.amount 1)) []⟩,
   ⟨(bytes% "\n"), (bytes% "WHITESPACES"), .pattern ((bytes% " ")) [] [(bytes% "whitespace")] [] .nonZeroMultiple []⟩]

def tokensData : List TokenT :=
  [⟨[], (bytes% "program"), (bytes% "\n    "),
     [([((bytes% " "), .token ((bytes% "headerVariables")) [] (some .optional) [] []), ((bytes% " "), .token ((bytes% "instructions")) [] none [] [])], (bytes% "\n    "))],
     none, some ⟨(bytes% "\n    "), [(bytes% "\n        -> uint firstVariable:first_input\n        <- uint secondVariable:second_input\n        <- string last:last_keyname?\n\n        string myVariable := \"some value\"\n        uint myUintValue\n        if (first < 56.87) {\n            value := 56\n        }\n        ")], (bytes% "\n    ")⟩⟩,
   ⟨(bytes% "\n\n"), (bytes% "headerVariables"), (bytes% "\n    "),
     [([((bytes% " "), .token ((bytes% "headerVariable")) [] (some .nonZeroMultiple) [] [])], (bytes% "\n    "))],
     none, some ⟨(bytes% "\n    "), [(bytes% "\n        -> uint firstVariable:first_input\n        <- uint secondVariable:second_input\n        <- string last:last_keyname?\n        ")], (bytes% "\n    ")⟩⟩,
   ⟨(bytes% "\n\n"), (bytes% "headerVariable"), (bytes% "\n    "),
     [([((bytes% " "), .token ((bytes% "inputOutput")) [] none [] []), ((bytes% " "), .token ((bytes% "variableDeclaration")) [] none [] []), ((bytes% " "), .rule ((bytes% "COLON")) [] none), ((bytes% " "), .rule ((bytes% "KEYNAME_PATTERN")) [] none), ((bytes% " "), .rule ((bytes% "QUESTION_MARK")) [] (some .optional))], (bytes% "\n    "))],
     none, some ⟨(bytes% "\n    "), [(bytes% "\n        -> uint firstVariable:my_input_keyname\n        "), (bytes% "\n        -> string secondVariable:my_optional_keyname?\n        "), (bytes% "\n        <- uint firstVariable:my_input_keyname\n        "), (bytes% "\n        <- string secondVariable:my_optional_keyname?\n        ")], (bytes% "\n    ")⟩⟩,
   ⟨(bytes% "\n\n"), (bytes% "inputOutput"), (bytes% "\n    "),
     [([((bytes% " "), .rule ((bytes% "RIGHT_ARROW")) [] none)], (bytes% "\n    ")),
      ([((bytes% " "), .rule ((bytes% "LEFT_ARROW")) [] none)], (bytes% "\n    "))],
     none, some ⟨(bytes% "\n    "), [(bytes% "\n        ->\n        "), (bytes% "\n        <-\n        ")], (bytes% "\n    ")⟩⟩,
   ⟨(bytes% "\n\n"), (bytes% "instructions"), (bytes% "\n    "),
     [([((bytes% " "), .token ((bytes% "instruction")) [] (some .nonZeroMultiple) [] [])], (bytes% "\n    "))],
     none, some ⟨(bytes% "\n    "), [(bytes% "\n        string myVariable := \"some value\"\n        uint myUintValue\n        if (first < 56.87) {\n            value := 56\n        }\n        ")], (bytes% "\n    ")⟩⟩,
   ⟨(bytes% "\n\n"), (bytes% "instruction"), (bytes% "\n    "),
     [([((bytes% " "), .token ((bytes% "assignment")) [] none [] [])], (bytes% "\n    ")),
      ([((bytes% " "), .token ((bytes% "variableDeclaration")) [] none [] [])], (bytes% "\n    ")),
      ([((bytes% " "), .token ((bytes% "ifDeclaration")) [] none [] [])], (bytes% "\n    ")),
      ([((bytes% " "), .token ((bytes% "forDeclaration")) [] none [] [])], (bytes% "\n    ")),
      ([((bytes% " "), .token ((bytes% "voidFuncCalls")) [] none [] [])], (bytes% "\n    ")),
      ([((bytes% " "), .token ((bytes% "direction")) [] none [] [])], (bytes% "\n    ")),
      ([((bytes% " "), .token ((bytes% "intIncrement")) [] none [] [])], (bytes% "\n    "))],
     none, some ⟨(bytes% "\n    "), [(bytes% "\n        string myVariable := \"some value\"\n        "), (bytes% "\n        uint myUintValue\n        "), (bytes% "\n        if (first < 56.87) {\n            value := 56\n        }\n        "), (bytes% "\n        for (myKeyname, myValue := [1, 2, 3]) {\n            break\n        }\n        "), (bytes% "\n        log(\"this is some string to log\")\n        "), (bytes% "\n        break\n        "), (bytes% "\n        continue\n        "), (bytes% "\n        cpt++\n        ")], (bytes% "\n    ")⟩⟩,
   ⟨(bytes% "\n\n"), (bytes% "direction"), (bytes% "\n    "),
     [([((bytes% " "), .rule ((bytes% "BREAK")) [] none)], (bytes% "\n    ")),
      ([((bytes% " "), .rule ((bytes% "CONTINUE")) [] none)], (bytes% "\n    "))],
     none, some ⟨(bytes% "\n    "), [(bytes% "\n        break\n        "), (bytes% "\n        continue\n        ")], (bytes% "\n    ")⟩⟩,
   ⟨(bytes% "\n\n"), (bytes% "voidFuncCalls"), (bytes% "\n    "),
     [([((bytes% " "), .token ((bytes% "logFuncCall")) [] none [] [])], (bytes% "\n    "))],
     none, some ⟨(bytes% "\n    "), [(bytes% "\n        log(firstValue < secondValue)\n        ")], (bytes% "\n    ")⟩⟩,
   ⟨(bytes% "\n\n"), (bytes% "logFuncCall"), (bytes% "\n    "),
     [([((bytes% " "), .rule ((bytes% "LOG_FUNC")) [] none), ((bytes% " "), .rule ((bytes% "OPEN_PARENTHESIS")) [] none), ((bytes% " "), .token ((bytes% "assignable")) [] none [] []), ((bytes% " "), .rule ((bytes% "CLOSE_PARENTHESIS")) [] none)], (bytes% "\n    "))],
     none, some ⟨(bytes% "\n    "), [(bytes% "\n        log(firstValue < secondValue)\n        ")], (bytes% "\n    ")⟩⟩,
   ⟨(bytes% "\n\n"), (bytes% "listAppend"), (bytes% "\n    "),
     [([((bytes% " "), .rule ((bytes% "APPEND")) [] none), ((bytes% " "), .token ((bytes% "listValue")) [] none [] []), ((bytes% " "), .rule ((bytes% "COMMA")) [] none), ((bytes% " "), .token ((bytes% "singleAssignable")) [] none [] [])], (bytes% "\n    "))],
     none, some ⟨(bytes% "\n    "), [(bytes% "\n        append [34, 212, 12, 32], myList[:45]...\n        "), (bytes% "\n        append myList, [32,45,67,54]...\n        "), (bytes% "\n        append myList, newElement\n        ")], (bytes% "\n    ")⟩⟩,
   ⟨(bytes% "\n\n"), (bytes% "slice"), (bytes% "\n    "),
     [([((bytes% " "), .token ((bytes% "listValue")) [] none [] []), ((bytes% " "), .rule ((bytes% "OPEN_SQUARE_BRACKET")) [] none), ((bytes% " "), .token ((bytes% "sliceDelimiter")) [] none [] []), ((bytes% " "), .rule ((bytes% "CLOSE_SQUARE_BRACKET")) [] none)], (bytes% "\n    "))],
     none, some ⟨(bytes% "\n    "), [(bytes% "\n        [34,45,65,67][1:]\n        "), (bytes% "\n        [34,45,65,67][1:3]\n        "), (bytes% "\n        myList[1:]\n        "), (bytes% "\n        myList[0:3]\n        ")], (bytes% "\n    ")⟩⟩,
   ⟨(bytes% "\n\n"), (bytes% "sliceDelimiter"), (bytes% "\n    "),
     [([((bytes% " "), .token ((bytes% "indexValue")) [] none [] []), ((bytes% " "), .rule ((bytes% "COLON")) [] none), ((bytes% " "), .token ((bytes% "indexValue")) [] (some .optional) [] [])], (bytes% "\n    "))],
     none, some ⟨(bytes% "\n    "), [(bytes% "\n        1:\n        "), (bytes% "\n        0:3\n        "), (bytes% "\n        1:3\n        "), (bytes% "\n        minIndex:\n        "), (bytes% "\n        0:maxIndex\n        "), (bytes% "\n        minIndex:maxIndex\n        "), (bytes% "\n        1:maxIndex\n        "), (bytes% "\n        minIndex:3\n        ")], (bytes% "\n    ")⟩⟩,
   ⟨(bytes% "\n\n"), (bytes% "indexValue"), (bytes% "\n    "),
     [([((bytes% " "), .rule ((bytes% "INT_PATTERN")) [] none)], (bytes% "\n    ")),
      ([((bytes% " "), .token ((bytes% "variableName")) [] none [] [])], (bytes% "\n    "))],
     none, some ⟨(bytes% "\n    "), [(bytes% "\n        87\n        "), (bytes% "\n        myIndex\n        ")], (bytes% "\n    ")⟩⟩,
   ⟨(bytes% "\n\n"), (bytes% "forDeclaration"), (bytes% "\n    "),
     [([((bytes% " "), .rule ((bytes% "FOR")) [] none), ((bytes% " "), .token ((bytes% "forStatement")) [] none [] []), ((bytes% " "), .rule ((bytes% "OPEN_BRACKET")) [] none), ((bytes% " "), .token ((bytes% "instructions")) [] (some .optional) [] []), ((bytes% " "), .rule ((bytes% "CLOSE_BRACKET")) [] none)], (bytes% "\n    "))],
     none, some ⟨(bytes% "\n    "), [(bytes% "\n        for myKeyname, myValue := [1, 2, 3] {\n\n        }\n        "), (bytes% "\n        for myKeyname, myValue := myList {\n\n        }\n        "), (bytes% "\n        for (myKeyname, myValue := [1, 2, 3]) {\n            str := \"this is some string\"\n            break\n        }\n        "), (bytes% "\n        for (myKeyname, myValue := myList) {\n            if (myKeyname == 0) {\n                myValue := 55\n                break\n            }\n\n            continue\n        }\n        ")], (bytes% "\n    ")⟩⟩,
   ⟨(bytes% "\n\n"), (bytes% "forStatement"), (bytes% "\n    "),
     [([((bytes% " "), .token ((bytes% "assigneeNames")) ((bytes% " ")) none [⟨(bytes% " "), false, (bytes% "commaAssigneeName"), [], .amount 1⟩] ((bytes% " "))), ((bytes% " "), .rule ((bytes% "COLON")) [] none), ((bytes% " "), .rule ((bytes% "EQUAL")) [] none), ((bytes% " "), .token ((bytes% "totalListValue")) [] none [] [])], (bytes% "\n    ")),
      ([((bytes% " "), .rule ((bytes% "OPEN_PARENTHESIS")) [] none), ((bytes% " "), .token ((bytes% "forStatement")) [] none [] []), ((bytes% " "), .rule ((bytes% "CLOSE_PARENTHESIS")) [] none)], (bytes% "\n    "))],
     none, some ⟨(bytes% "\n    "), [(bytes% "\n        myKeyname, myValue := [1, 2, 3]\n        "), (bytes% "\n        _, myValue := [1, 2, 3]\n        "), (bytes% "\n        myKeyname, _ := [1, 2, 3]\n        "), (bytes% "\n        myKeyname, myValue := [1, 2, 3][1:]\n        "), (bytes% "\n        myKeyname, myValue := myList\n        "), (bytes% "\n        (myKeyname, myValue := myList)\n        "), (bytes% "\n        ((((myKeyname, myValue := myList))))\n        ")], (bytes% "\n    ")⟩⟩,
   ⟨(bytes% "\n\n"), (bytes% "ifDeclaration"), (bytes% "\n    "),
     [([((bytes% " "), .token ((bytes% "ifOperation")) [] none [] []), ((bytes% " "), .rule ((bytes% "OPEN_BRACKET")) [] none), ((bytes% " "), .token ((bytes% "instructions")) [] (some .optional) [] []), ((bytes% " "), .rule ((bytes% "CLOSE_BRACKET")) [] none)], (bytes% "\n    "))],
     none, some ⟨(bytes% "\n    "), [(bytes% "\n        if ((first < (second +third)) == false) {\n\n        }\n        "), (bytes% "\n        if ((first < (second +third)) == false) {\n            value := 56\n        }\n        "), (bytes% "\n        if (first < 56.87) {\n            value := 56\n            break\n        }\n        ")], (bytes% "\n    ")⟩⟩,
   ⟨(bytes% "\n\n"), (bytes% "ifOperation"), (bytes% "\n    "),
     [([((bytes% " "), .rule ((bytes% "IF")) [] none), ((bytes% " "), .token ((bytes% "operation")) [] none [] [])], (bytes% "\n    "))],
     none, some ⟨(bytes% "\n    "), [(bytes% "\n        if true\n        "), (bytes% "\n        if first < second\n        "), (bytes% "\n        if ((first < (second +third)) == false)\n        "), (bytes% "\n        if isNull(firstVariable)\n        ")], (bytes% "\n    ")⟩⟩,
   ⟨(bytes% "\n\n"), (bytes% "operation"), (bytes% "\n    "),
     [([((bytes% " "), .token ((bytes% "operationWithSuffix")) [] none [] [])], (bytes% "\n    ")),
      ([((bytes% " "), .token ((bytes% "operationFuncCalls")) [] none [] [])], (bytes% "\n    ")),
      ([((bytes% " "), .rule ((bytes% "OPEN_PARENTHESIS")) [] none), ((bytes% " "), .token ((bytes% "operation")) [] none [] []), ((bytes% " "), .rule ((bytes% "CLOSE_PARENTHESIS")) [] none)], (bytes% "\n    "))],
     none, some ⟨(bytes% "\n    "), [(bytes% "\n        first\n        "), (bytes% "\n        (first - second + (first + second))\n        "), (bytes% "\n        ((((first) - second) + (second+ third)) - (second + (first + second))) + last\n        "), (bytes% "\n        (first < 45.67)\n        "), (bytes% "\n        isNull(firstVariable)\n        "), (bytes% "\n        (isNull(firstVariable))\n        ")], (bytes% "\n    ")⟩⟩,
   ⟨(bytes% "\n\n"), (bytes% "operationWithSuffix"), (bytes% "\n    "),
     [([((bytes% " "), .token ((bytes% "operationElement")) [] none [] []), ((bytes% " "), .token ((bytes% "operationSuffix")) [] (some .optional) [] [])], (bytes% "\n    "))],
     none, some ⟨(bytes% "\n    "), [(bytes% "\n        first\n        "), (bytes% "\n        first - second\n        "), (bytes% "\n        first - second + (first + second)\n        "), (bytes% "\n        (first - second + (first + second))\n        "), (bytes% "\n        ((((first) - second) + (second+ third)) - (second + (first + second))) + last\n        "), (bytes% "\n        (first < 45.67)\n        ")], (bytes% "\n    ")⟩⟩,
   ⟨(bytes% "\n\n"), (bytes% "operationSuffix"), (bytes% "\n    "),
     [([((bytes% " "), .token ((bytes% "operator")) [] none [] []), ((bytes% " "), .token ((bytes% "operationElement")) [] none [] [])], (bytes% "\n    "))],
     none, some ⟨(bytes% "\n    "), [(bytes% "\n        + second\n        "), (bytes% "\n        + (first - second)\n        "), (bytes% "\n        > 45.67\n        ")], (bytes% "\n    ")⟩⟩,
   ⟨(bytes% "\n\n"), (bytes% "operationElement"), (bytes% "\n    "),
     [([((bytes% " "), .token ((bytes% "boolValue")) [] none [] [])], (bytes% "\n    ")),
      ([((bytes% " "), .token ((bytes% "variableName")) [] none [] [])], (bytes% "\n    ")),
      ([((bytes% " "), .token ((bytes% "computableValue")) [] none [] [])], (bytes% "\n    ")),
      ([((bytes% " "), .token ((bytes% "operation")) [] none [] [])], (bytes% "\n    "))],
     none, some ⟨(bytes% "\n    "), [(bytes% "\n        true\n        "), (bytes% "\n        4556.54\n        "), (bytes% "\n        someVariable\n        "), (bytes% "\n        first - second\n        "), (bytes% "\n        45.67\n        "), (bytes% "\n        isNull(firstVariable)\n        ")], (bytes% "\n    ")⟩⟩,
   ⟨(bytes% "\n\n"), (bytes% "operationFuncCalls"), (bytes% "\n    "),
     [([((bytes% " "), .token ((bytes% "isNullFuncCall")) [] none [] [])], (bytes% "\n    "))],
     none, some ⟨(bytes% "\n    "), [(bytes% "\n        isNull(firstVariable)\n        ")], (bytes% "\n    ")⟩⟩,
   ⟨(bytes% "\n\n"), (bytes% "isNullFuncCall"), (bytes% "\n    "),
     [([((bytes% " "), .rule ((bytes% "IS_NULL_FUNC")) [] none), ((bytes% " "), .rule ((bytes% "OPEN_PARENTHESIS")) [] none), ((bytes% " "), .token ((bytes% "operation")) [] none [] []), ((bytes% " "), .rule ((bytes% "CLOSE_PARENTHESIS")) [] none)], (bytes% "\n    "))],
     none, some ⟨(bytes% "\n    "), [(bytes% "\n        isNull(firstVariable)\n        ")], (bytes% "\n    ")⟩⟩,
   ⟨(bytes% "\n\n"), (bytes% "operator"), (bytes% "\n    "),
     [([((bytes% " "), .token ((bytes% "operatorArithmetic")) [] none [] [])], (bytes% "\n    ")),
      ([((bytes% " "), .token ((bytes% "operatorRelational")) [] none [] [])], (bytes% "\n    ")),
      ([((bytes% " "), .token ((bytes% "operatorLogical")) [] none [] [])], (bytes% "\n    "))],
     none, some ⟨(bytes% "\n    "), [(bytes% "\n        +\n        "), (bytes% "\n        <=\n        "), (bytes% "\n        ||\n        ")], (bytes% "\n    ")⟩⟩,
   ⟨(bytes% "\n\n"), (bytes% "operatorArithmetic"), (bytes% "\n    "),
     [([((bytes% " "), .rule ((bytes% "PLUS")) [] none)], (bytes% "\n    ")),
      ([((bytes% " "), .rule ((bytes% "MINUS")) [] none)], (bytes% "\n    ")),
      ([((bytes% " "), .rule ((bytes% "STAR")) [] none)], (bytes% "\n    ")),
      ([((bytes% " "), .rule ((bytes% "DIV")) [] none)], (bytes% "\n    "))],
     none, some ⟨(bytes% "\n    "), [(bytes% "\n        +\n        "), (bytes% "\n        -\n        "), (bytes% "\n        *\n        "), (bytes% "\n        /\n        ")], (bytes% "\n    ")⟩⟩,
   ⟨(bytes% "\n\n"), (bytes% "operatorRelational"), (bytes% "\n    "),
     [([((bytes% " "), .rule ((bytes% "LESS")) [] none), ((bytes% " "), .rule ((bytes% "EQUAL")) [] (some .optional))], (bytes% "\n    ")),
      ([((bytes% " "), .rule ((bytes% "MORE")) [] none), ((bytes% " "), .rule ((bytes% "EQUAL")) [] (some .optional))], (bytes% "\n    ")),
      ([((bytes% " "), .rule ((bytes% "EXCLAMATION")) [] none), ((bytes% " "), .rule ((bytes% "EQUAL")) [] none)], (bytes% "\n    ")),
      ([((bytes% " "), .rule ((bytes% "EQUAL")) [] (some (.specific (.amount 2))))], (bytes% "\n    "))],
     none, some ⟨(bytes% "\n    "), [(bytes% "\n        <\n        "), (bytes% "\n        <=\n        "), (bytes% "\n        >\n        "), (bytes% "\n        >=\n        "), (bytes% "\n        !=\n        "), (bytes% "\n        ==\n        ")], (bytes% "\n    ")⟩⟩,
   ⟨(bytes% "\n\n"), (bytes% "operatorLogical"), (bytes% "\n    "),
     [([((bytes% " "), .rule ((bytes% "AND")) [] (some (.specific (.amount 2))))], (bytes% "\n    ")),
      ([((bytes% " "), .rule ((bytes% "PIPE")) [] (some (.specific (.amount 2))))], (bytes% "\n    "))],
     none, some ⟨(bytes% "\n    "), [(bytes% "\n        &&\n        "), (bytes% "\n        ||\n        ")], (bytes% "\n    ")⟩⟩,
   ⟨(bytes% "\n\n"), (bytes% "assignment"), (bytes% "\n    "),
     [([((bytes% " "), .token ((bytes% "assignee")) [] none [] []), ((bytes% " "), .token ((bytes% "assignables")) [] none [] [])], (bytes% "\n    "))],
     none, some ⟨(bytes% "\n    "), [(bytes% "\n        string myVariable := \"some value\"\n        "), (bytes% "\n        myVariable := \"some value\"\n        "), (bytes% "\n        string myVariable, int myInt := \"some value\", 45\n        "), (bytes% "\n        myVariable, _, otherValue := \"some value\", 456, 335.98\n        "), (bytes% "\n        myVariable = 456.78\n        "), (bytes% "\n        myVariable, _, otherValue = \"some value\", 456, 335.98\n        ")], (bytes% "\n    ")⟩⟩,
   ⟨(bytes% "\n\n"), (bytes% "assignee"), (bytes% "\n    "),
     [([((bytes% " "), .token ((bytes% "assigneeNameFirsts")) [] none [] []), ((bytes% " "), .rule ((bytes% "COLON")) [] none), ((bytes% " "), .rule ((bytes% "EQUAL")) [] none)], (bytes% "\n    ")),
      ([((bytes% " "), .token ((bytes% "assigneeNames")) [] none [] []), ((bytes% " "), .rule ((bytes% "EQUAL")) [] none)], (bytes% "\n    "))],
     none, some ⟨(bytes% "\n    "), [(bytes% "\n        string myVariable :=\n        "), (bytes% "\n        string myVariable, _, int myInt :=\n        "), (bytes% "\n        myVariable :=\n        "), (bytes% "\n        myVariable =\n        "), (bytes% "\n        _, myVariable =\n        "), (bytes% "\n        _ =\n        ")], (bytes% "\n    ")⟩⟩,
   ⟨(bytes% "\n\n"), (bytes% "assigneeNameFirsts"), (bytes% "\n    "),
     [([((bytes% " "), .token ((bytes% "assigneeNameFirst")) [] none [] []), ((bytes% " "), .token ((bytes% "commaAssigneeFirst")) [] (some .zeroMultiple) [] [])], (bytes% "\n    "))],
     none, some ⟨(bytes% "\n    "), [(bytes% "\n        string myVariable\n        "), (bytes% "\n        string myVariable, _, myLast,  int myInt\n        ")], (bytes% "\n    ")⟩⟩,
   ⟨(bytes% "\n\n"), (bytes% "commaAssigneeFirst"), (bytes% "\n    "),
     [([((bytes% " "), .rule ((bytes% "COMMA")) [] none), ((bytes% " "), .token ((bytes% "assigneeNameFirst")) [] none [] [])], (bytes% "\n    "))],
     none, some ⟨(bytes% "\n    "), [(bytes% "\n        , string myVariable\n        "), (bytes% "\n        , myVariable\n        "), (bytes% "\n        , _\n        ")], (bytes% "\n    ")⟩⟩,
   ⟨(bytes% "\n\n"), (bytes% "assigneeNameFirst"), (bytes% "\n    "),
     [([((bytes% " "), .token ((bytes% "variableDeclaration")) [] none [] [])], (bytes% "\n    ")),
      ([((bytes% " "), .token ((bytes% "assigneeName")) [] none [] [])], (bytes% "\n    "))],
     none, some ⟨(bytes% "\n    "), [(bytes% "\n        string myVariable\n        "), (bytes% "\n        myVariable\n        "), (bytes% "\n        _\n        ")], (bytes% "\n    ")⟩⟩,
   ⟨(bytes% "\n\n"), (bytes% "assigneeNames"), (bytes% "\n    "),
     [([((bytes% " "), .token ((bytes% "assigneeName")) [] none [] []), ((bytes% " "), .token ((bytes% "commaAssigneeName")) [] (some .zeroMultiple) [] [])], (bytes% "\n    "))],
     none, some ⟨(bytes% "\n    "), [(bytes% "\n        first\n        "), (bytes% "\n        first, _\n        "), (bytes% "\n        _, second, _, fourth, _\n        "), (bytes% "\n        first, _, last\n        ")], (bytes% "\n    ")⟩⟩,
   ⟨(bytes% "\n\n"), (bytes% "commaAssigneeName"), (bytes% "\n    "),
     [([((bytes% " "), .rule ((bytes% "COMMA")) [] none), ((bytes% " "), .token ((bytes% "assigneeName")) [] none [] [])], (bytes% "\n    "))],
     none, some ⟨(bytes% "\n    "), [(bytes% "\n        , myName\n        "), (bytes% "\n        , _\n        ")], (bytes% "\n    ")⟩⟩,
   ⟨(bytes% "\n\n"), (bytes% "assigneeName"), (bytes% "\n    "),
     [([((bytes% " "), .token ((bytes% "variableName")) [] none [] [])], (bytes% "\n    ")),
      ([((bytes% " "), .rule ((bytes% "UNDERSCORE")) [] none)], (bytes% "\n    "))],
     none, some ⟨(bytes% "\n    "), [(bytes% "\n        myVariable\n        "), (bytes% "\n        _\n        ")], (bytes% "\n    ")⟩⟩,
   ⟨(bytes% "\n\n"), (bytes% "assignables"), (bytes% "\n    "),
     [([((bytes% " "), .token ((bytes% "assignable")) [] none [] []), ((bytes% " "), .token ((bytes% "commaAssignable")) [] (some .zeroMultiple) [] [])], (bytes% "\n    "))],
     none, some ⟨(bytes% "\n    "), [(bytes% "\n        34, -45.98, \"something\", (((first - second) + third + (fourth / fifth)) * (seventh - height)) - ninth\n        "), (bytes% "\n        34\n        ")], (bytes% "\n    ")⟩⟩,
   ⟨(bytes% "\n\n"), (bytes% "commaAssignable"), (bytes% "\n    "),
     [([((bytes% " "), .rule ((bytes% "COMMA")) [] none), ((bytes% " "), .token ((bytes% "assignable")) [] none [] [])], (bytes% "\n    "))],
     none, some ⟨(bytes% "\n    "), [(bytes% "\n        ,-456.543\n        "), (bytes% "\n        ,(((first - second) + third + (fourth / fifth)) * (seventh - height)) - ninth\n        ")], (bytes% "\n    ")⟩⟩,
   ⟨(bytes% "\n\n"), (bytes% "assignable"), (bytes% "\n    "),
     [([((bytes% " "), .token ((bytes% "totalListAssignable")) [] none [] [])], (bytes% "\n    ")),
      ([((bytes% " "), .token ((bytes% "singleAssignable")) [] none [] [])], (bytes% "\n    "))],
     none, some ⟨(bytes% "\n    "), [(bytes% "\n        -456.543\n        "), (bytes% "\n        (((first - second) + third + (fourth / fifth)) * (seventh - height)) - ninth\n        "), (bytes% "\n        [34, -45.98, \"something\", (((first - second) + third + (fourth / fifth)) * (seventh - height)) - ninth]\n        "), (bytes% "\n        []\n        "), (bytes% "\n        [\n            [34, 45, 54, 34],\n            [21, 23, 45, 67]\n        ]\n        "), (bytes% "\n        [34,56,76,87][1:3]\n        "), (bytes% "\n        myList[min:45]\n        "), (bytes% "\n        append myList, 45\n        "), (bytes% "\n        append myList, 45...\n        "), (bytes% "\n        ([\n            [34, 45, 54, 34],\n            [21, 23, 45, 67]\n        ])...\n        "), (bytes% "\n        (append myList, 45)...\n        ")], (bytes% "\n    ")⟩⟩,
   ⟨(bytes% "\n\n"), (bytes% "singleAssignable"), (bytes% "\n    "),
     [([((bytes% " "), .token ((bytes% "declarableValue")) [] none [] [])], (bytes% "\n    ")),
      ([((bytes% " "), .token ((bytes% "operation")) [] none [] [])], (bytes% "\n    ")),
      ([((bytes% " "), .token ((bytes% "listAssignableToAssignables")) [] none [] [])], (bytes% "\n    ")),
      ([((bytes% " "), .token ((bytes% "listFetchElement")) [] none [] [])], (bytes% "\n    "))],
     none, some ⟨(bytes% "\n    "), [(bytes% "\n        -456.543\n        "), (bytes% "\n        (((first - second) + third + (fourth / fifth)) * (seventh - height)) - ninth\n        "), (bytes% "\n        append myList, 45...\n        "), (bytes% "\n        ([\n            [34, 45, 54, 34],\n            [21, 23, 45, 67]\n        ])...\n        "), (bytes% "\n        (append myList, 45)...\n        "), (bytes% "\n        [\n            [34, 45, 54, 34],\n            [21, 23, 45, 67]\n        ][1]\n        "), (bytes% "\n        myList[myIndex]\n        "), (bytes% "\n        (append myList, 45)[myIndex]\n        ")], (bytes% "\n    ")⟩⟩,
   ⟨(bytes% "\n\n"), (bytes% "listFetchElement"), (bytes% "\n    "),
     [([((bytes% " "), .token ((bytes% "totalListValue")) [] none [] []), ((bytes% " "), .token ((bytes% "listElementFetcher")) [] none [] [])], (bytes% "\n    "))],
     none, some ⟨(bytes% "\n    "), [(bytes% "\n        myList[4]\n        "), (bytes% "\n        [\n            [34, 45, 54, 34],\n            [21, 23, 45, 67]\n        ][1]\n        "), (bytes% "\n        [34,56,76,87][1:3][0]\n        "), (bytes% "\n        myList[min:45][myIndex]\n        "), (bytes% "\n        append myList, 45[23]\n        ")], (bytes% "\n    ")⟩⟩,
   ⟨(bytes% "\n\n"), (bytes% "listElementFetcher"), (bytes% "\n    "),
     [([((bytes% " "), .rule ((bytes% "OPEN_SQUARE_BRACKET")) [] none), ((bytes% " "), .token ((bytes% "indexValue")) [] none [] []), ((bytes% " "), .rule ((bytes% "CLOSE_SQUARE_BRACKET")) [] none)], (bytes% "\n    "))],
     none, some ⟨(bytes% "\n    "), [(bytes% "\n        [34]\n        "), (bytes% "\n        [0]\n        "), (bytes% "\n        [myIndex]\n        ")], (bytes% "\n    ")⟩⟩,
   ⟨(bytes% "\n\n"), (bytes% "listAssignableToAssignables"), (bytes% "\n    "),
     [([((bytes% " "), .token ((bytes% "totalListAssignable")) [] none [] []), ((bytes% " "), .rule ((bytes% "DOT")) [] (some (.specific (.amount 3))))], (bytes% "\n    ")),
      ([((bytes% " "), .rule ((bytes% "OPEN_PARENTHESIS")) [] none), ((bytes% " "), .token ((bytes% "totalListAssignable")) [] none [] []), ((bytes% " "), .rule ((bytes% "CLOSE_PARENTHESIS")) [] none), ((bytes% " "), .rule ((bytes% "DOT")) [] (some (.specific (.amount 3))))], (bytes% "\n    "))],
     none, some ⟨(bytes% "\n    "), [(bytes% "\n        [\n            [34, 45, 54, 34],\n            [21, 23, 45, 67]\n        ]...\n        "), (bytes% "\n        [34,56,76,87][1:3]...\n        "), (bytes% "\n        myList[min:45]...\n        "), (bytes% "\n        append myList, 45...\n        "), (bytes% "\n        ([\n            [34, 45, 54, 34],\n            [21, 23, 45, 67]\n        ])...\n        "), (bytes% "\n        (append myList, 45)...\n        ")], (bytes% "\n    ")⟩⟩,
   ⟨(bytes% "\n\n"), (bytes% "totalListValue"), (bytes% "\n    "),
     [([((bytes% " "), .token ((bytes% "variableName")) [] none [] [])], (bytes% "\n    ")),
      ([((bytes% " "), .token ((bytes% "totalListAssignable")) [] none [] [])], (bytes% "\n    "))],
     none, some ⟨(bytes% "\n    "), [(bytes% "\n        []\n        "), (bytes% "\n        [\n            [34, 45, 54, 34],\n            [21, 23, 45, 67]\n        ]\n        "), (bytes% "\n        [34,56,76,87][1:3]\n        "), (bytes% "\n        myList[min:45]\n        "), (bytes% "\n        append myList, 45\n        "), (bytes% "\n        myVariable\n        ")], (bytes% "\n    ")⟩⟩,
   ⟨(bytes% "\n\n"), (bytes% "totalListAssignable"), (bytes% "\n    "),
     [([((bytes% " "), .token ((bytes% "listValue")) [] none [] [])], (bytes% "\n    ")),
      ([((bytes% " "), .token ((bytes% "slice")) [] none [] [])], (bytes% "\n    ")),
      ([((bytes% " "), .token ((bytes% "listAppend")) [] none [] [])], (bytes% "\n    "))],
     none, some ⟨(bytes% "\n    "), [(bytes% "\n        []\n        "), (bytes% "\n        [\n            [34, 45, 54, 34],\n            [21, 23, 45, 67]\n        ]\n        "), (bytes% "\n        [34,56,76,87][1:3]\n        "), (bytes% "\n        myList[min:45]\n        "), (bytes% "\n        append myList, 45\n        ")], (bytes% "\n    ")⟩⟩,
   ⟨(bytes% "\n\n"), (bytes% "listValue"), (bytes% "\n    "),
     [([((bytes% " "), .token ((bytes% "listAssignable")) [] none [] [])], (bytes% "\n    ")),
      ([((bytes% " "), .token ((bytes% "variableName")) [] none [] [])], (bytes% "\n    "))],
     none, some ⟨(bytes% "\n    "), [(bytes% "\n        [34, -45.98, \"something\", (((first - second) + third + (fourth / fifth)) * (seventh - height)) - ninth]\n        "), (bytes% "\n        myVariable\n        ")], (bytes% "\n    ")⟩⟩,
   ⟨(bytes% "\n\n"), (bytes% "listAssignable"), (bytes% "\n    "),
     [([((bytes% " "), .rule ((bytes% "OPEN_SQUARE_BRACKET")) [] none), ((bytes% " "), .token ((bytes% "assignables")) [] (some .optional) [] []), ((bytes% " "), .rule ((bytes% "CLOSE_SQUARE_BRACKET")) [] none)], (bytes% "\n    "))],
     none, some ⟨(bytes% "\n    "), [(bytes% "\n        [34, -45.98, \"something\", (((first - second) + third + (fourth / fifth)) * (seventh - height)) - ninth]\n        "), (bytes% "\n        []\n        ")], (bytes% "\n    ")⟩⟩,
   ⟨(bytes% "\n\n"), (bytes% "intIncrement"), (bytes% "\n    "),
     [([((bytes% " "), .token ((bytes% "variableName")) [] none [] []), ((bytes% " "), .token ((bytes% "intIncrementValue")) [] none [] [])], (bytes% "\n    "))],
     none, some ⟨(bytes% "\n    "), [(bytes% "\n        first++\n        "), (bytes% "\n        first--\n        ")], (bytes% "\n    ")⟩⟩,
   ⟨(bytes% "\n\n"), (bytes% "intIncrementValue"), (bytes% "\n    "),
     [([((bytes% " "), .rule ((bytes% "PLUS")) [] none), ((bytes% " "), .rule ((bytes% "PLUS")) [] none)], (bytes% "\n    ")),
      ([((bytes% " "), .rule ((bytes% "MINUS")) [] none), ((bytes% " "), .rule ((bytes% "MINUS")) [] none)], (bytes% "\n    "))],
     none, some ⟨(bytes% "\n    "), [(bytes% "\n        ++\n        "), (bytes% "\n        --\n        ")], (bytes% "\n    ")⟩⟩,
   ⟨(bytes% "\n\n"), (bytes% "declarableValue"), (bytes% "\n    "),
     [([((bytes% " "), .token ((bytes% "computableValue")) [] none [] [])], (bytes% "\n    ")),
      ([((bytes% " "), .token ((bytes% "primitiveValue")) [] none [] [])], (bytes% "\n    "))],
     none, some ⟨(bytes% "\n    "), [(bytes% "\n        -456.654\n        "), (bytes% "\n        \"this is some value\"\n        ")], (bytes% "\n    ")⟩⟩,
   ⟨(bytes% "\n\n"), (bytes% "computableValue"), (bytes% "\n    "),
     [([((bytes% " "), .token ((bytes% "floatValue")) [] none [] [])], (bytes% "\n    ")),
      ([((bytes% " "), .token ((bytes% "intValue")) [] none [] [])], (bytes% "\n    "))],
     none, some ⟨(bytes% "\n    "), [(bytes% "\n        567\n        "), (bytes% "\n        -456.654\n        ")], (bytes% "\n    ")⟩⟩,
   ⟨(bytes% "\n\n"), (bytes% "primitiveValue"), (bytes% "\n    "),
     [([((bytes% " "), .token ((bytes% "boolValue")) [] none [] [])], (bytes% "\n    ")),
      ([((bytes% " "), .token ((bytes% "stringValue")) [] none [] [])], (bytes% "\n    "))],
     none, some ⟨(bytes% "\n    "), [(bytes% "\n        true\n        "), (bytes% "\n        \"this is some value\"\n        ")], (bytes% "\n    ")⟩⟩,
   ⟨(bytes% "\n\n"), (bytes% "stringValue"), (bytes% "\n    "),
     [([((bytes% " "), .switch), ((bytes% " "), .rule ((bytes% "QUOTATION")) [] none), ((bytes% " "), .rule ((bytes% "EVERYTHING_EXCEPT_QUOTATION")) [] none), ((bytes% " "), .rule ((bytes% "QUOTATION")) [] none), ((bytes% " "), .switch)], (bytes% "\n    "))],
     none, some ⟨(bytes% "\n    "), [(bytes% "\n        \"this is some string\"\n        "), (bytes% "\n        \" \"\n        ")], (bytes% "\n    ")⟩⟩,
   ⟨(bytes% "\n\n"), (bytes% "boolValue"), (bytes% "\n    "),
     [([((bytes% " "), .rule ((bytes% "TRUE")) [] none)], (bytes% "\n    ")),
      ([((bytes% " "), .rule ((bytes% "FALSE")) [] none)], (bytes% "\n    "))],
     none, some ⟨(bytes% "\n    "), [(bytes% "\n        true\n        "), (bytes% "\n        false\n        ")], (bytes% "\n    ")⟩⟩,
   ⟨(bytes% "\n\n"), (bytes% "intValue"), (bytes% "\n    "),
     [([((bytes% " "), .rule ((bytes% "MINUS")) [] (some .optional)), ((bytes% " "), .rule ((bytes% "INT_PATTERN")) [] none)], (bytes% "\n    "))],
     none, some ⟨(bytes% "\n    "), [(bytes% "\n        -11\n        "), (bytes% "\n        2345\n        ")], (bytes% "\n    ")⟩⟩,
   ⟨(bytes% "\n\n"), (bytes% "floatValue"), (bytes% "\n    "),
     [([((bytes% " "), .rule ((bytes% "MINUS")) [] (some .optional)), ((bytes% " "), .rule ((bytes% "INT_PATTERN")) [] none), ((bytes% " "), .rule ((bytes% "DOT")) [] none), ((bytes% " "), .rule ((bytes% "INT_PATTERN")) [] none)], (bytes% "\n    "))],
     none, some ⟨(bytes% "\n    "), [(bytes% "\n        -45.789\n        "), (bytes% "\n        345.321\n        ")], (bytes% "\n    ")⟩⟩,
   ⟨(bytes% "\n\n"), (bytes% "variableDeclarations"), (bytes% "\n    "),
     [([((bytes% " "), .token ((bytes% "variableDeclaration")) [] none [] []), ((bytes% " "), .token ((bytes% "commaVariableDeclaration")) [] (some .zeroMultiple) [] [])], (bytes% "\n    "))],
     none, some ⟨(bytes% "\n    "), [(bytes% "\n        string myString, int mySecond, uint myThird\n        "), (bytes% "\n        string myValue\n        ")], (bytes% "\n    ")⟩⟩,
   ⟨(bytes% "\n\n"), (bytes% "commaVariableDeclaration"), (bytes% "\n    "),
     [([((bytes% " "), .rule ((bytes% "COMMA")) [] none), ((bytes% " "), .token ((bytes% "variableDeclaration")) [] none [] [])], (bytes% "\n    "))],
     none, some ⟨(bytes% "\n    "), [(bytes% "\n        , string myString\n        ")], (bytes% "\n    ")⟩⟩,
   ⟨(bytes% "\n\n"), (bytes% "variableDeclaration"), (bytes% "\n    "),
     [([((bytes% " "), .token ((bytes% "declarativeType")) [] none [] []), ((bytes% " "), .token ((bytes% "variableName")) [] none [] [])], (bytes% "\n    "))],
     none, some ⟨(bytes% "\n    "), [(bytes% "\n        uint myUintValue\n        "), (bytes% "\n        list<string> myList\n        ")], (bytes% "\n    ")⟩⟩,
   ⟨(bytes% "\n\n"), (bytes% "declarativeType"), (bytes% "\n    "),
     [([((bytes% " "), .token ((bytes% "primitiveType")) [] none [] [])], (bytes% "\n    ")),
      ([((bytes% " "), .token ((bytes% "computableType")) [] none [] [])], (bytes% "\n    ")),
      ([((bytes% " "), .token ((bytes% "listType")) [] none [] [])], (bytes% "\n    "))],
     none, some ⟨(bytes% "\n    "), [(bytes% "\n        bool\n        "), (bytes% "\n        int\n        "), (bytes% "\n        list<int>\n        "), (bytes% "\n        list<list<int>>\n        ")], (bytes% "\n    ")⟩⟩,
   ⟨(bytes% "\n\n"), (bytes% "listType"), (bytes% "\n    "),
     [([((bytes% " "), .rule ((bytes% "LIST")) [] none), ((bytes% " "), .rule ((bytes% "LESS")) [] none), ((bytes% " "), .token ((bytes% "declarativeType")) [] none [] []), ((bytes% " "), .rule ((bytes% "MORE")) [] none)], (bytes% "\n    "))],
     none, some ⟨(bytes% "\n    "), [(bytes% "\n        list<string>\n        "), (bytes% "\n        list<int>\n        "), (bytes% "\n        list<list<int>>\n        ")], (bytes% "\n    ")⟩⟩,
   ⟨(bytes% "\n\n"), (bytes% "primitiveType"), (bytes% "\n    "),
     [([((bytes% " "), .rule ((bytes% "BOOL")) [] none)], (bytes% "\n    ")),
      ([((bytes% " "), .rule ((bytes% "STRING")) [] none)], (bytes% "\n    "))],
     none, some ⟨(bytes% "\n    "), [(bytes% "\n        bool\n        "), (bytes% "\n        string\n        ")], (bytes% "\n    ")⟩⟩,
   ⟨(bytes% "\n\n\n"), (bytes% "computableType"), (bytes% "\n    "),
     [([((bytes% " "), .rule ((bytes% "FLOAT")) [] none)], (bytes% "\n    ")),
      ([((bytes% " "), .rule ((bytes% "UINT")) [] none)], (bytes% "\n    ")),
      ([((bytes% " "), .rule ((bytes% "INT")) [] none)], (bytes% "\n    "))],
     none, some ⟨(bytes% "\n    "), [(bytes% "\n        uint\n        "), (bytes% "\n        int\n        "), (bytes% "\n        float\n        ")], (bytes% "\n    ")⟩⟩,
   ⟨(bytes% "\n\n"), (bytes% "variableName"), (bytes% "\n    "),
     [([((bytes% " "), .switch), ((bytes% " "), .rule ((bytes% "FIRST_LETTER")) [] none), ((bytes% " "), .rule ((bytes% "MIN_MAJ_LETTERS")) [] none), ((bytes% " "), .switch)], (bytes% "\n    "))],
     none, some ⟨(bytes% "\n    "), [(bytes% "\n        myVariable\n        ")], (bytes% "\n    ")⟩⟩]

def channelsData : List TokenT :=
  [⟨[], (bytes% "whiteSpaces"), (bytes% "\n\t"),
     [([((bytes% " "), .rule ((bytes% "WHITESPACES")) [] none)], (bytes% "\n\t"))],
     none, none⟩,
   ⟨(bytes% "\n\n"), (bytes% "multiLineComment"), (bytes% "\n\t"),
     [([((bytes% " "), .rule ((bytes% "MULTI_LINE_COMMENT")) [] none)], (bytes% "\n\t"))],
     none, none⟩,
   ⟨(bytes% "\n\n"), (bytes% "lineComment"), (bytes% "\n\t"),
     [([((bytes% " "), .rule ((bytes% "SINGLE_LINE_COMMENT")) [] none)], (bytes% "\n\t"))],
     none, none⟩]

def patternsPiecesB : List Str :=
  [(bytes% "numbers: NUMBERS;"),
   (bytes% "\nunderscore: UNDERSCORE;"),
   (bytes% "\nmin_letters: MIN_LETTERS;"),
   (bytes% "\nmaj_letters: MAJ_LETTERS;"),
   (bytes% "\nwhitespace: WHITESPACE;"),
   (bytes% "\neverything_except_quotation: @QUOTATION;"),
   (bytes% "\nsingle_line_comment: TWO_SLASHES @EOF EOF;"),
   (bytes% "\nmulti_line_comment: SLASH_STAR @STAR_SLASH STAR_SLASH;"),
   (bytes% "\n\nNUMBERS: $NUMBERS;"),
   (bytes% "\nQUOTATION: $QUOTATION;"),
   (bytes% "\nMIN_LETTERS: $MIN_LETTERS;"),
   (bytes% "\nMAJ_LETTERS: $MAJ_LETTERS;"),
   (bytes% "\nSLASH_STAR: $SLASH_STAR;"),
   (bytes% "\nSTAR_SLASH: $STAR_SLASH;"),
   (bytes% "\nTWO_SLASHES: $TWO_SLASHES;"),
   (bytes% "\nUNDERSCORE: $UNDERSCORE;"),
   (bytes% "\nWHITESPACE: $WHITESPACE;"),
   (bytes% "\nEOF: $EOF;"),
   (bytes% "\n\n$MIN_LETTERS: \"a,b,c,d,e,f,g,h,i,j,k,l,m,n,o,p,q,r,s,t,u,v,w,x,y,z\";"),
   (bytes% "\n$MAJ_LETTERS: \"A,B,C,D,E,F,G,H,I,J,K,L,M,N,O,P,Q,R,S,T,U,V,W,X,Y,Z\";"),
   (bytes% "\n$NUMBERS: \"0,1,2,3,4,5,6,7,8,9\";"),
   (bytes% "\n$SLASH_STAR: \"/*\";"),
   (bytes% "\n$STAR_SLASH: \"*/\";"),
   (bytes% "\n$QUOTATION: \"\\\"\";"),
   (bytes% "\n$TWO_SLASHES: \"//\";"),
   (bytes% "\n$UNDERSCORE: \"_\";"),
   (bytes% "\n$WHITESPACE: \" ,\t,\n\";"),
   (bytes% "\n$EOF: \"\n\";")]
theorem patternsPieces_eq : patternsPieces = patternsPiecesB := by
  unfold patternsPieces patternsPiecesB
  simp only [litBytes]
theorem patterns_pieces : patternsData.map (Entry.text [92, 34]) = patternsPiecesB := by decide +kernel

def rulesPiecesB : List Str :=
  [(bytes% "FIRST_LETTER: [min_letters]{1};"),
   (bytes% "\nMIN_MAJ_LETTERS: [min_letters maj_letters]+;"),
   (bytes% "\nINT_PATTERN: [numbers]+;"),
   (bytes% "\nKEYNAME_PATTERN: [min_letters underscore]+;"),
   (bytes% "\nEVERYTHING_EXCEPT_QUOTATION: [everything_except_quotation]+;"),
   (bytes% "\nCOMMA: \",\";"),
   (bytes% "\nOPEN_PARENTHESIS: \"(\";"),
   (bytes% "\nCLOSE_PARENTHESIS: \")\";"),
   (bytes% "\nOPEN_BRACKET: \"{\";"),
   (bytes% "\nCLOSE_BRACKET: \"}\";"),
   (bytes% "\nOPEN_SQUARE_BRACKET: \"[\";"),
   (bytes% "\nCLOSE_SQUARE_BRACKET: \"]\";"),
   (bytes% "\nQUOTATION: \"\\\"\";"),
   (bytes% "\nMINUS: \"-\";"),
   (bytes% "\nCOLON: \":\";"),
   (bytes% "\nEQUAL: \"=\";"),
   (bytes% "\nDOT: \".\";"),
   (bytes% "\nAND: \"&\";"),
   (bytes% "\nPIPE: \"|\";"),
   (bytes% "\nLESS: \"<\";"),
   (bytes% "\nMORE: \">\";"),
   (bytes% "\nPLUS: \"+\";"),
   (bytes% "\nSTAR: \"*\";"),
   (bytes% "\nDIV: \"/\";"),
   (bytes% "\nEXCLAMATION: \"!\";"),
   (bytes% "\nUNDERSCORE: \"_\";"),
   (bytes% "\nRIGHT_ARROW: \"->\";"),
   (bytes% "\nLEFT_ARROW: \"<-\";"),
   (bytes% "\nQUESTION_MARK: \"?\";"),
   (bytes% "\nBREAK: \"break\";"),
   (bytes% "\nCONTINUE: \"continue\";"),
   (bytes% "\nAPPEND: \"append\";"),
   (bytes% "\nFOR: \"for\";"),
   (bytes% "\nLIST: \"list\";"),
   (bytes% "\nBOOL: \"bool\";"),
   (bytes% "\nINT: \"int\";"),
   (bytes% "\nUINT: \"uint\";"),
   (bytes% "\nFLOAT: \"float\";"),
   (bytes% "\nSTRING: \"string\";"),
   (bytes% "\nHEIGHT: \"8\";"),
   (bytes% "\nSIXTEEN: \"16\";"),
   (bytes% "\nTHIRTY_TWO: \"32\";"),
   (bytes% "\nSIXTY_FOUR: \"64\";"),
   (bytes% "\nTRUE: \"true\";"),
   (bytes% "\nFALSE: \"false\";"),
   (bytes% "\nIF: \"if\";"),
   (bytes% "\nIS_NULL_FUNC: \"isNull\";"),
   (bytes% "\nLOG_FUNC: \"log\";"),
   (bytes% "\nSINGLE_LINE_COMMENT: [single_line_comment]{1};"),
   (bytes% "\nMULTI_LINE_COMMENT: [multi_line_comment]{1};"),
   (bytes% "\nWHITESPACES: [whitespace]+;")]
theorem rulesPieces_eq : rulesPieces = rulesPiecesB := by
  unfold rulesPieces rulesPiecesB
  simp only [litBytes]
theorem rules_pieces : rulesData.map RuleT.text = rulesPiecesB := by decide +kernel

def tokensPiecesB : List Str :=
  [(bytes% "program\n    : headerVariables? instructions\n    +++\n    :\n        -> uint firstVariable:first_input\n        <- uint secondVariable:second_input\n        <- string last:last_keyname?\n\n        string myVariable := \"some value\"\n        uint myUintValue\n        if (first < 56.87) {\n            value := 56\n        }\n        ###\n    ;"),
   (bytes% "\n\nheaderVariables\n    : headerVariable+\n    +++\n    :\n        -> uint firstVariable:first_input\n        <- uint secondVariable:second_input\n        <- string last:last_keyname?\n        ###\n    ;"),
   (bytes% "\n\nheaderVariable\n    : inputOutput variableDeclaration COLON KEYNAME_PATTERN QUESTION_MARK?\n    +++\n    :\n        -> uint firstVariable:my_input_keyname\n        ###\n        -> string secondVariable:my_optional_keyname?\n        ###\n        <- uint firstVariable:my_input_keyname\n        ###\n        <- string secondVariable:my_optional_keyname?\n        ###\n    ;"),
   (bytes% "\n\ninputOutput\n    : RIGHT_ARROW\n    | LEFT_ARROW\n    +++\n    :\n        ->\n        ###\n        <-\n        ###\n    ;"),
   (bytes% "\n\ninstructions\n    : instruction+\n    +++\n    :\n        string myVariable := \"some value\"\n        uint myUintValue\n        if (first < 56.87) {\n            value := 56\n        }\n        ###\n    ;"),
   (bytes% "\n\ninstruction\n    : assignment\n    | variableDeclaration\n    | ifDeclaration\n    | forDeclaration\n    | voidFuncCalls\n    | direction\n    | intIncrement\n    +++\n    :\n        string myVariable := \"some value\"\n        ###\n        uint myUintValue\n        ###\n        if (first < 56.87) {\n            value := 56\n        }\n        ###\n        for (myKeyname, myValue := [1, 2, 3]) {\n            break\n        }\n        ###\n        log(\"this is some string to log\")\n        ###\n        break\n        ###\n        continue\n        ###\n        cpt++\n        ###\n    ;"),
   (bytes% "\n\ndirection\n    : BREAK\n    | CONTINUE\n    +++\n    :\n        break\n        ###\n        continue\n        ###\n    ;"),
   (bytes% "\n\nvoidFuncCalls\n    : logFuncCall\n    +++\n    :\n        log(firstValue < secondValue)\n        ###\n    ;"),
   (bytes% "\n\nlogFuncCall\n    : LOG_FUNC OPEN_PARENTHESIS assignable CLOSE_PARENTHESIS\n    +++\n    :\n        log(firstValue < secondValue)\n        ###\n    ;"),
   (bytes% "\n\nlistAppend\n    : APPEND listValue COMMA singleAssignable\n    +++\n    :\n        append [34, 212, 12, 32], myList[:45]...\n        ###\n        append myList, [32,45,67,54]...\n        ###\n        append myList, newElement\n        ###\n    ;"),
   (bytes% "\n\nslice\n    : listValue OPEN_SQUARE_BRACKET sliceDelimiter CLOSE_SQUARE_BRACKET\n    +++\n    :\n        [34,45,65,67][1:]\n        ###\n        [34,45,65,67][1:3]\n        ###\n        myList[1:]\n        ###\n        myList[0:3]\n        ###\n    ;"),
   (bytes% "\n\nsliceDelimiter\n    : indexValue COLON indexValue?\n    +++\n    :\n        1:\n        ###\n        0:3\n        ###\n        1:3\n        ###\n        minIndex:\n        ###\n        0:maxIndex\n        ###\n        minIndex:maxIndex\n        ###\n        1:maxIndex\n        ###\n        minIndex:3\n        ###\n    ;"),
   (bytes% "\n\nindexValue\n    : INT_PATTERN\n    | variableName\n    +++\n    :\n        87\n        ###\n        myIndex\n        ###\n    ;"),
   (bytes% "\n\nforDeclaration\n    : FOR forStatement OPEN_BRACKET instructions? CLOSE_BRACKET\n    +++\n    :\n        for myKeyname, myValue := [1, 2, 3] {\n\n        }\n        ###\n        for myKeyname, myValue := myList {\n\n        }\n        ###\n        for (myKeyname, myValue := [1, 2, 3]) {\n            str := \"this is some string\"\n            break\n        }\n        ###\n        for (myKeyname, myValue := myList) {\n            if (myKeyname == 0) {\n                myValue := 55\n                break\n            }\n\n            continue\n        }\n        ###\n    ;"),
   (bytes% "\n\nforStatement\n    : assigneeNames -> commaAssigneeName{1} <- COLON EQUAL totalListValue\n    | OPEN_PARENTHESIS forStatement CLOSE_PARENTHESIS\n    +++\n    :\n        myKeyname, myValue := [1, 2, 3]\n        ###\n        _, myValue := [1, 2, 3]\n        ###\n        myKeyname, _ := [1, 2, 3]\n        ###\n        myKeyname, myValue := [1, 2, 3][1:]\n        ###\n        myKeyname, myValue := myList\n        ###\n        (myKeyname, myValue := myList)\n        ###\n        ((((myKeyname, myValue := myList))))\n        ###\n    ;"),
   (bytes% "\n\nifDeclaration\n    : ifOperation OPEN_BRACKET instructions? CLOSE_BRACKET\n    +++\n    :\n        if ((first < (second +third)) == false) {\n\n        }\n        ###\n        if ((first < (second +third)) == false) {\n            value := 56\n        }\n        ###\n        if (first < 56.87) {\n            value := 56\n            break\n        }\n        ###\n    ;"),
   (bytes% "\n\nifOperation\n    : IF operation\n    +++\n    :\n        if true\n        ###\n        if first < second\n        ###\n        if ((first < (second +third)) == false)\n        ###\n        if isNull(firstVariable)\n        ###\n    ;"),
   (bytes% "\n\noperation\n    : operationWithSuffix\n    | operationFuncCalls\n    | OPEN_PARENTHESIS operation CLOSE_PARENTHESIS\n    +++\n    :\n        first\n        ###\n        (first - second + (first + second))\n        ###\n        ((((first) - second) + (second+ third)) - (second + (first + second))) + last\n        ###\n        (first < 45.67)\n        ###\n        isNull(firstVariable)\n        ###\n        (isNull(firstVariable))\n        ###\n    ;"),
   (bytes% "\n\noperationWithSuffix\n    : operationElement operationSuffix?\n    +++\n    :\n        first\n        ###\n        first - second\n        ###\n        first - second + (first + second)\n        ###\n        (first - second + (first + second))\n        ###\n        ((((first) - second) + (second+ third)) - (second + (first + second))) + last\n        ###\n        (first < 45.67)\n        ###\n    ;"),
   (bytes% "\n\noperationSuffix\n    : operator operationElement\n    +++\n    :\n        + second\n        ###\n        + (first - second)\n        ###\n        > 45.67\n        ###\n    ;"),
   (bytes% "\n\noperationElement\n    : boolValue\n    | variableName\n    | computableValue\n    | operation\n    +++\n    :\n        true\n        ###\n        4556.54\n        ###\n        someVariable\n        ###\n        first - second\n        ###\n        45.67\n        ###\n        isNull(firstVariable)\n        ###\n    ;"),
   (bytes% "\n\noperationFuncCalls\n    : isNullFuncCall\n    +++\n    :\n        isNull(firstVariable)\n        ###\n    ;"),
   (bytes% "\n\nisNullFuncCall\n    : IS_NULL_FUNC OPEN_PARENTHESIS operation CLOSE_PARENTHESIS\n    +++\n    :\n        isNull(firstVariable)\n        ###\n    ;"),
   (bytes% "\n\noperator\n    : operatorArithmetic\n    | operatorRelational\n    | operatorLogical\n    +++\n    :\n        +\n        ###\n        <=\n        ###\n        ||\n        ###\n    ;"),
   (bytes% "\n\noperatorArithmetic\n    : PLUS\n    | MINUS\n    | STAR\n    | DIV\n    +++\n    :\n        +\n        ###\n        -\n        ###\n        *\n        ###\n        /\n        ###\n    ;"),
   (bytes% "\n\noperatorRelational\n    : LESS EQUAL?\n    | MORE EQUAL?\n    | EXCLAMATION EQUAL\n    | EQUAL{2}\n    +++\n    :\n        <\n        ###\n        <=\n        ###\n        >\n        ###\n        >=\n        ###\n        !=\n        ###\n        ==\n        ###\n    ;"),
   (bytes% "\n\noperatorLogical\n    : AND{2}\n    | PIPE{2}\n    +++\n    :\n        &&\n        ###\n        ||\n        ###\n    ;"),
   (bytes% "\n\nassignment\n    : assignee assignables\n    +++\n    :\n        string myVariable := \"some value\"\n        ###\n        myVariable := \"some value\"\n        ###\n        string myVariable, int myInt := \"some value\", 45\n        ###\n        myVariable, _, otherValue := \"some value\", 456, 335.98\n        ###\n        myVariable = 456.78\n        ###\n        myVariable, _, otherValue = \"some value\", 456, 335.98\n        ###\n    ;"),
   (bytes% "\n\nassignee\n    : assigneeNameFirsts COLON EQUAL\n    | assigneeNames EQUAL\n    +++\n    :\n        string myVariable :=\n        ###\n        string myVariable, _, int myInt :=\n        ###\n        myVariable :=\n        ###\n        myVariable =\n        ###\n        _, myVariable =\n        ###\n        _ =\n        ###\n    ;"),
   (bytes% "\n\nassigneeNameFirsts\n    : assigneeNameFirst commaAssigneeFirst*\n    +++\n    :\n        string myVariable\n        ###\n        string myVariable, _, myLast,  int myInt\n        ###\n    ;"),
   (bytes% "\n\ncommaAssigneeFirst\n    : COMMA assigneeNameFirst\n    +++\n    :\n        , string myVariable\n        ###\n        , myVariable\n        ###\n        , _\n        ###\n    ;"),
   (bytes% "\n\nassigneeNameFirst\n    : variableDeclaration\n    | assigneeName\n    +++\n    :\n        string myVariable\n        ###\n        myVariable\n        ###\n        _\n        ###\n    ;"),
   (bytes% "\n\nassigneeNames\n    : assigneeName commaAssigneeName*\n    +++\n    :\n        first\n        ###\n        first, _\n        ###\n        _, second, _, fourth, _\n        ###\n        first, _, last\n        ###\n    ;"),
   (bytes% "\n\ncommaAssigneeName\n    : COMMA assigneeName\n    +++\n    :\n        , myName\n        ###\n        , _\n        ###\n    ;"),
   (bytes% "\n\nassigneeName\n    : variableName\n    | UNDERSCORE\n    +++\n    :\n        myVariable\n        ###\n        _\n        ###\n    ;"),
   (bytes% "\n\nassignables\n    : assignable commaAssignable*\n    +++\n    :\n        34, -45.98, \"something\", (((first - second) + third + (fourth / fifth)) * (seventh - height)) - ninth\n        ###\n        34\n        ###\n    ;"),
   (bytes% "\n\ncommaAssignable\n    : COMMA assignable\n    +++\n    :\n        ,-456.543\n        ###\n        ,(((first - second) + third + (fourth / fifth)) * (seventh - height)) - ninth\n        ###\n    ;"),
   (bytes% "\n\nassignable\n    : totalListAssignable\n    | singleAssignable\n    +++\n    :\n        -456.543\n        ###\n        (((first - second) + third + (fourth / fifth)) * (seventh - height)) - ninth\n        ###\n        [34, -45.98, \"something\", (((first - second) + third + (fourth / fifth)) * (seventh - height)) - ninth]\n        ###\n        []\n        ###\n        [\n            [34, 45, 54, 34],\n            [21, 23, 45, 67]\n        ]\n        ###\n        [34,56,76,87][1:3]\n        ###\n        myList[min:45]\n        ###\n        append myList, 45\n        ###\n        append myList, 45...\n        ###\n        ([\n            [34, 45, 54, 34],\n            [21, 23, 45, 67]\n        ])...\n        ###\n        (append myList, 45)...\n        ###\n    ;"),
   (bytes% "\n\nsingleAssignable\n    : declarableValue\n    | operation\n    | listAssignableToAssignables\n    | listFetchElement\n    +++\n    :\n        -456.543\n        ###\n        (((first - second) + third + (fourth / fifth)) * (seventh - height)) - ninth\n        ###\n        append myList, 45...\n        ###\n        ([\n            [34, 45, 54, 34],\n            [21, 23, 45, 67]\n        ])...\n        ###\n        (append myList, 45)...\n        ###\n        [\n            [34, 45, 54, 34],\n            [21, 23, 45, 67]\n        ][1]\n        ###\n        myList[myIndex]\n        ###\n        (append myList, 45)[myIndex]\n        ###\n    ;"),
   (bytes% "\n\nlistFetchElement\n    : totalListValue listElementFetcher\n    +++\n    :\n        myList[4]\n        ###\n        [\n            [34, 45, 54, 34],\n            [21, 23, 45, 67]\n        ][1]\n        ###\n        [34,56,76,87][1:3][0]\n        ###\n        myList[min:45][myIndex]\n        ###\n        append myList, 45[23]\n        ###\n    ;"),
   (bytes% "\n\nlistElementFetcher\n    : OPEN_SQUARE_BRACKET indexValue CLOSE_SQUARE_BRACKET\n    +++\n    :\n        [34]\n        ###\n        [0]\n        ###\n        [myIndex]\n        ###\n    ;"),
   (bytes% "\n\nlistAssignableToAssignables\n    : totalListAssignable DOT{3}\n    | OPEN_PARENTHESIS totalListAssignable CLOSE_PARENTHESIS DOT{3}\n    +++\n    :\n        [\n            [34, 45, 54, 34],\n            [21, 23, 45, 67]\n        ]...\n        ###\n        [34,56,76,87][1:3]...\n        ###\n        myList[min:45]...\n        ###\n        append myList, 45...\n        ###\n        ([\n            [34, 45, 54, 34],\n            [21, 23, 45, 67]\n        ])...\n        ###\n        (append myList, 45)...\n        ###\n    ;"),
   (bytes% "\n\ntotalListValue\n    : variableName\n    | totalListAssignable\n    +++\n    :\n        []\n        ###\n        [\n            [34, 45, 54, 34],\n            [21, 23, 45, 67]\n        ]\n        ###\n        [34,56,76,87][1:3]\n        ###\n        myList[min:45]\n        ###\n        append myList, 45\n        ###\n        myVariable\n        ###\n    ;"),
   (bytes% "\n\ntotalListAssignable\n    : listValue\n    | slice\n    | listAppend\n    +++\n    :\n        []\n        ###\n        [\n            [34, 45, 54, 34],\n            [21, 23, 45, 67]\n        ]\n        ###\n        [34,56,76,87][1:3]\n        ###\n        myList[min:45]\n        ###\n        append myList, 45\n        ###\n    ;"),
   (bytes% "\n\nlistValue\n    : listAssignable\n    | variableName\n    +++\n    :\n        [34, -45.98, \"something\", (((first - second) + third + (fourth / fifth)) * (seventh - height)) - ninth]\n        ###\n        myVariable\n        ###\n    ;"),
   (bytes% "\n\nlistAssignable\n    : OPEN_SQUARE_BRACKET assignables? CLOSE_SQUARE_BRACKET\n    +++\n    :\n        [34, -45.98, \"something\", (((first - second) + third + (fourth / fifth)) * (seventh - height)) - ninth]\n        ###\n        []\n        ###\n    ;"),
   (bytes% "\n\nintIncrement\n    : variableName intIncrementValue\n    +++\n    :\n        first++\n        ###\n        first--\n        ###\n    ;"),
   (bytes% "\n\nintIncrementValue\n    : PLUS PLUS\n    | MINUS MINUS\n    +++\n    :\n        ++\n        ###\n        --\n        ###\n    ;"),
   (bytes% "\n\ndeclarableValue\n    : computableValue\n    | primitiveValue\n    +++\n    :\n        -456.654\n        ###\n        \"this is some value\"\n        ###\n    ;"),
   (bytes% "\n\ncomputableValue\n    : floatValue\n    | intValue\n    +++\n    :\n        567\n        ###\n        -456.654\n        ###\n    ;"),
   (bytes% "\n\nprimitiveValue\n    : boolValue\n    | stringValue\n    +++\n    :\n        true\n        ###\n        \"this is some value\"\n        ###\n    ;"),
   (bytes% "\n\nstringValue\n    : # QUOTATION EVERYTHING_EXCEPT_QUOTATION QUOTATION #\n    +++\n    :\n        \"this is some string\"\n        ###\n        \" \"\n        ###\n    ;"),
   (bytes% "\n\nboolValue\n    : TRUE\n    | FALSE\n    +++\n    :\n        true\n        ###\n        false\n        ###\n    ;"),
   (bytes% "\n\nintValue\n    : MINUS? INT_PATTERN\n    +++\n    :\n        -11\n        ###\n        2345\n        ###\n    ;"),
   (bytes% "\n\nfloatValue\n    : MINUS? INT_PATTERN DOT INT_PATTERN\n    +++\n    :\n        -45.789\n        ###\n        345.321\n        ###\n    ;"),
   (bytes% "\n\nvariableDeclarations\n    : variableDeclaration commaVariableDeclaration*\n    +++\n    :\n        string myString, int mySecond, uint myThird\n        ###\n        string myValue\n        ###\n    ;"),
   (bytes% "\n\ncommaVariableDeclaration\n    : COMMA variableDeclaration\n    +++\n    :\n        , string myString\n        ###\n    ;"),
   (bytes% "\n\nvariableDeclaration\n    : declarativeType variableName\n    +++\n    :\n        uint myUintValue\n        ###\n        list<string> myList\n        ###\n    ;"),
   (bytes% "\n\ndeclarativeType\n    : primitiveType\n    | computableType\n    | listType\n    +++\n    :\n        bool\n        ###\n        int\n        ###\n        list<int>\n        ###\n        list<list<int>>\n        ###\n    ;"),
   (bytes% "\n\nlistType\n    : LIST LESS declarativeType MORE\n    +++\n    :\n        list<string>\n        ###\n        list<int>\n        ###\n        list<list<int>>\n        ###\n    ;"),
   (bytes% "\n\nprimitiveType\n    : BOOL\n    | STRING\n    +++\n    :\n        bool\n        ###\n        string\n        ###\n    ;"),
   (bytes% "\n\n\ncomputableType\n    : FLOAT\n    | UINT\n    | INT\n    +++\n    :\n        uint\n        ###\n        int\n        ###\n        float\n        ###\n    ;"),
   (bytes% "\n\nvariableName\n    : # FIRST_LETTER MIN_MAJ_LETTERS #\n    +++\n    :\n        myVariable\n        ###\n    ;")]
theorem tokensPieces_eq : tokensPieces = tokensPiecesB := by
  unfold tokensPieces tokensPiecesB
  simp only [litBytes]
theorem tokens_pieces : tokensData.map TokenT.text = tokensPiecesB := by decide +kernel

def channelsPiecesB : List Str :=
  [(bytes% "whiteSpaces\n\t: WHITESPACES\n\t;"),
   (bytes% "\n\nmultiLineComment\n\t: MULTI_LINE_COMMENT\n\t;"),
   (bytes% "\n\nlineComment\n\t: SINGLE_LINE_COMMENT\n\t;")]
theorem channelsPieces_eq : channelsPieces = channelsPiecesB := by
  unfold channelsPieces channelsPiecesB
  simp only [litBytes]
theorem channels_pieces : channelsData.map TokenT.text = channelsPiecesB := by decide +kernel

end Verif.Base
