import Verif.Model.Go

/-!
# The shipped texts of the base grammar

`domain/languages/scripts/resources/base/{patterns,rules,tokens,channels}.alex`, verbatim (generated by `tools/gen_base_text.py`). Each text is
cut into pieces behind the semicolons which end the entries.
-/

namespace Verif.Base
open Verif

/-- `patterns.alex`, 791 bytes. Read by `scripts/test_helper.go:39-42`. -/
def patternsPieces : List Str :=
  [lit "numbers: NUMBERS;",
   lit "\nunderscore: UNDERSCORE;",
   lit "\nmin_letters: MIN_LETTERS;",
   lit "\nmaj_letters: MAJ_LETTERS;",
   lit "\nwhitespace: WHITESPACE;",
   lit "\neverything_except_quotation: @QUOTATION;",
   lit "\nsingle_line_comment: TWO_SLASHES @EOF EOF;",
   lit "\nmulti_line_comment: SLASH_STAR @STAR_SLASH STAR_SLASH;",
   lit "\n\nNUMBERS: $NUMBERS;",
   lit "\nQUOTATION: $QUOTATION;",
   lit "\nMIN_LETTERS: $MIN_LETTERS;",
   lit "\nMAJ_LETTERS: $MAJ_LETTERS;",
   lit "\nSLASH_STAR: $SLASH_STAR;",
   lit "\nSTAR_SLASH: $STAR_SLASH;",
   lit "\nTWO_SLASHES: $TWO_SLASHES;",
   lit "\nUNDERSCORE: $UNDERSCORE;",
   lit "\nWHITESPACE: $WHITESPACE;",
   lit "\nEOF: $EOF;",
   lit "\n\n$MIN_LETTERS: \"a,b,c,d,e,f,g,h,i,j,k,l,m,n,o,p,q,r,s,t,u,v,w,x,y,z\";",
   lit "\n$MAJ_LETTERS: \"A,B,C,D,E,F,G,H,I,J,K,L,M,N,O,P,Q,R,S,T,U,V,W,X,Y,Z\";",
   lit "\n$NUMBERS: \"0,1,2,3,4,5,6,7,8,9\";",
   lit "\n$SLASH_STAR: \"/*\";",
   lit "\n$STAR_SLASH: \"*/\";",
   lit "\n$QUOTATION: \"\\\"\";",
   lit "\n$TWO_SLASHES: \"//\";",
   lit "\n$UNDERSCORE: \"_\";",
   lit "\n$WHITESPACE: \" ,\t,\n\";",
   lit "\n$EOF: \"\n\";"]
/-- What follows the last semicolon. The end of the file read by `scripts/test_helper.go:39-42`. -/
def patternsEnd : Str := lit "\n"
/-- The whole `patterns.alex`, read by `scripts/test_helper.go:39-42`. -/
def patternsAlex : Str := patternsPieces.flatten ++ patternsEnd

/-- `rules.alex`, 1009 bytes. Read by `scripts/test_helper.go:39-42`. -/
def rulesPieces : List Str :=
  [lit "FIRST_LETTER: [min_letters]{1};",
   lit "\nMIN_MAJ_LETTERS: [min_letters maj_letters]+;",
   lit "\nINT_PATTERN: [numbers]+;",
   lit "\nKEYNAME_PATTERN: [min_letters underscore]+;",
   lit "\nEVERYTHING_EXCEPT_QUOTATION: [everything_except_quotation]+;",
   lit "\nCOMMA: \",\";",
   lit "\nOPEN_PARENTHESIS: \"(\";",
   lit "\nCLOSE_PARENTHESIS: \")\";",
   lit "\nOPEN_BRACKET: \"{\";",
   lit "\nCLOSE_BRACKET: \"}\";",
   lit "\nOPEN_SQUARE_BRACKET: \"[\";",
   lit "\nCLOSE_SQUARE_BRACKET: \"]\";",
   lit "\nQUOTATION: \"\\\"\";",
   lit "\nMINUS: \"-\";",
   lit "\nCOLON: \":\";",
   lit "\nEQUAL: \"=\";",
   lit "\nDOT: \".\";",
   lit "\nAND: \"&\";",
   lit "\nPIPE: \"|\";",
   lit "\nLESS: \"<\";",
   lit "\nMORE: \">\";",
   lit "\nPLUS: \"+\";",
   lit "\nSTAR: \"*\";",
   lit "\nDIV: \"/\";",
   lit "\nEXCLAMATION: \"!\";",
   lit "\nUNDERSCORE: \"_\";",
   lit "\nRIGHT_ARROW: \"->\";",
   lit "\nLEFT_ARROW: \"<-\";",
   lit "\nQUESTION_MARK: \"?\";",
   lit "\nBREAK: \"break\";",
   lit "\nCONTINUE: \"continue\";",
   lit "\nAPPEND: \"append\";",
   lit "\nFOR: \"for\";",
   lit "\nLIST: \"list\";",
   lit "\nBOOL: \"bool\";",
   lit "\nINT: \"int\";",
   lit "\nUINT: \"uint\";",
   lit "\nFLOAT: \"float\";",
   lit "\nSTRING: \"string\";",
   lit "\nHEIGHT: \"8\";",
   lit "\nSIXTEEN: \"16\";",
   lit "\nTHIRTY_TWO: \"32\";",
   lit "\nSIXTY_FOUR: \"64\";",
   lit "\nTRUE: \"true\";",
   lit "\nFALSE: \"false\";",
   lit "\nIF: \"if\";",
   lit "\nIS_NULL_FUNC: \"isNull\";",
   lit "\nLOG_FUNC: \"log\";",
   lit "\nSINGLE_LINE_COMMENT: [single_line_comment]{1};",
   lit "\nMULTI_LINE_COMMENT: [multi_line_comment]{1};",
   lit "\nWHITESPACES: [whitespace]+;"]
/-- What follows the last semicolon. The end of the file read by `scripts/test_helper.go:39-42`. -/
def rulesEnd : Str := lit "\n"
/-- The whole `rules.alex`, read by `scripts/test_helper.go:39-42`. -/
def rulesAlex : Str := rulesPieces.flatten ++ rulesEnd

/-- `tokens.alex`, 14833 bytes. Read by `scripts/test_helper.go:39-42`. -/
def tokensPieces : List Str :=
  [lit "program\n    : headerVariables? instructions\n    +++\n    :\n        -> uint firstVariable:first_input\n        <- uint secondVariable:second_input\n        <- string last:last_keyname?\n\n        string myVariable := \"some value\"\n        uint myUintValue\n        if (first < 56.87) {\n            value := 56\n        }\n        ###\n    ;",
   lit "\n\nheaderVariables\n    : headerVariable+\n    +++\n    :\n        -> uint firstVariable:first_input\n        <- uint secondVariable:second_input\n        <- string last:last_keyname?\n        ###\n    ;",
   lit "\n\nheaderVariable\n    : inputOutput variableDeclaration COLON KEYNAME_PATTERN QUESTION_MARK?\n    +++\n    :\n        -> uint firstVariable:my_input_keyname\n        ###\n        -> string secondVariable:my_optional_keyname?\n        ###\n        <- uint firstVariable:my_input_keyname\n        ###\n        <- string secondVariable:my_optional_keyname?\n        ###\n    ;",
   lit "\n\ninputOutput\n    : RIGHT_ARROW\n    | LEFT_ARROW\n    +++\n    :\n        ->\n        ###\n        <-\n        ###\n    ;",
   lit "\n\ninstructions\n    : instruction+\n    +++\n    :\n        string myVariable := \"some value\"\n        uint myUintValue\n        if (first < 56.87) {\n            value := 56\n        }\n        ###\n    ;",
   lit "\n\ninstruction\n    : assignment\n    | variableDeclaration\n    | ifDeclaration\n    | forDeclaration\n    | voidFuncCalls\n    | direction\n    | intIncrement\n    +++\n    :\n        string myVariable := \"some value\"\n        ###\n        uint myUintValue\n        ###\n        if (first < 56.87) {\n            value := 56\n        }\n        ###\n        for (myKeyname, myValue := [1, 2, 3]) {\n            break\n        }\n        ###\n        log(\"this is some string to log\")\n        ###\n        break\n        ###\n        continue\n        ###\n        cpt++\n        ###\n    ;",
   lit "\n\ndirection\n    : BREAK\n    | CONTINUE\n    +++\n    :\n        break\n        ###\n        continue\n        ###\n    ;",
   lit "\n\nvoidFuncCalls\n    : logFuncCall\n    +++\n    :\n        log(firstValue < secondValue)\n        ###\n    ;",
   lit "\n\nlogFuncCall\n    : LOG_FUNC OPEN_PARENTHESIS assignable CLOSE_PARENTHESIS\n    +++\n    :\n        log(firstValue < secondValue)\n        ###\n    ;",
   lit "\n\nlistAppend\n    : APPEND listValue COMMA singleAssignable\n    +++\n    :\n        append [34, 212, 12, 32], myList[:45]...\n        ###\n        append myList, [32,45,67,54]...\n        ###\n        append myList, newElement\n        ###\n    ;",
   lit "\n\nslice\n    : listValue OPEN_SQUARE_BRACKET sliceDelimiter CLOSE_SQUARE_BRACKET\n    +++\n    :\n        [34,45,65,67][1:]\n        ###\n        [34,45,65,67][1:3]\n        ###\n        myList[1:]\n        ###\n        myList[0:3]\n        ###\n    ;",
   lit "\n\nsliceDelimiter\n    : indexValue COLON indexValue?\n    +++\n    :\n        1:\n        ###\n        0:3\n        ###\n        1:3\n        ###\n        minIndex:\n        ###\n        0:maxIndex\n        ###\n        minIndex:maxIndex\n        ###\n        1:maxIndex\n        ###\n        minIndex:3\n        ###\n    ;",
   lit "\n\nindexValue\n    : INT_PATTERN\n    | variableName\n    +++\n    :\n        87\n        ###\n        myIndex\n        ###\n    ;",
   lit "\n\nforDeclaration\n    : FOR forStatement OPEN_BRACKET instructions? CLOSE_BRACKET\n    +++\n    :\n        for myKeyname, myValue := [1, 2, 3] {\n\n        }\n        ###\n        for myKeyname, myValue := myList {\n\n        }\n        ###\n        for (myKeyname, myValue := [1, 2, 3]) {\n            str := \"this is some string\"\n            break\n        }\n        ###\n        for (myKeyname, myValue := myList) {\n            if (myKeyname == 0) {\n                myValue := 55\n                break\n            }\n\n            continue\n        }\n        ###\n    ;",
   lit "\n\nforStatement\n    : assigneeNames -> commaAssigneeName{1} <- COLON EQUAL totalListValue\n    | OPEN_PARENTHESIS forStatement CLOSE_PARENTHESIS\n    +++\n    :\n        myKeyname, myValue := [1, 2, 3]\n        ###\n        _, myValue := [1, 2, 3]\n        ###\n        myKeyname, _ := [1, 2, 3]\n        ###\n        myKeyname, myValue := [1, 2, 3][1:]\n        ###\n        myKeyname, myValue := myList\n        ###\n        (myKeyname, myValue := myList)\n        ###\n        ((((myKeyname, myValue := myList))))\n        ###\n    ;",
   lit "\n\nifDeclaration\n    : ifOperation OPEN_BRACKET instructions? CLOSE_BRACKET\n    +++\n    :\n        if ((first < (second +third)) == false) {\n\n        }\n        ###\n        if ((first < (second +third)) == false) {\n            value := 56\n        }\n        ###\n        if (first < 56.87) {\n            value := 56\n            break\n        }\n        ###\n    ;",
   lit "\n\nifOperation\n    : IF operation\n    +++\n    :\n        if true\n        ###\n        if first < second\n        ###\n        if ((first < (second +third)) == false)\n        ###\n        if isNull(firstVariable)\n        ###\n    ;",
   lit "\n\noperation\n    : operationWithSuffix\n    | operationFuncCalls\n    | OPEN_PARENTHESIS operation CLOSE_PARENTHESIS\n    +++\n    :\n        first\n        ###\n        (first - second + (first + second))\n        ###\n        ((((first) - second) + (second+ third)) - (second + (first + second))) + last\n        ###\n        (first < 45.67)\n        ###\n        isNull(firstVariable)\n        ###\n        (isNull(firstVariable))\n        ###\n    ;",
   lit "\n\noperationWithSuffix\n    : operationElement operationSuffix?\n    +++\n    :\n        first\n        ###\n        first - second\n        ###\n        first - second + (first + second)\n        ###\n        (first - second + (first + second))\n        ###\n        ((((first) - second) + (second+ third)) - (second + (first + second))) + last\n        ###\n        (first < 45.67)\n        ###\n    ;",
   lit "\n\noperationSuffix\n    : operator operationElement\n    +++\n    :\n        + second\n        ###\n        + (first - second)\n        ###\n        > 45.67\n        ###\n    ;",
   lit "\n\noperationElement\n    : boolValue\n    | variableName\n    | computableValue\n    | operation\n    +++\n    :\n        true\n        ###\n        4556.54\n        ###\n        someVariable\n        ###\n        first - second\n        ###\n        45.67\n        ###\n        isNull(firstVariable)\n        ###\n    ;",
   lit "\n\noperationFuncCalls\n    : isNullFuncCall\n    +++\n    :\n        isNull(firstVariable)\n        ###\n    ;",
   lit "\n\nisNullFuncCall\n    : IS_NULL_FUNC OPEN_PARENTHESIS operation CLOSE_PARENTHESIS\n    +++\n    :\n        isNull(firstVariable)\n        ###\n    ;",
   lit "\n\noperator\n    : operatorArithmetic\n    | operatorRelational\n    | operatorLogical\n    +++\n    :\n        +\n        ###\n        <=\n        ###\n        ||\n        ###\n    ;",
   lit "\n\noperatorArithmetic\n    : PLUS\n    | MINUS\n    | STAR\n    | DIV\n    +++\n    :\n        +\n        ###\n        -\n        ###\n        *\n        ###\n        /\n        ###\n    ;",
   lit "\n\noperatorRelational\n    : LESS EQUAL?\n    | MORE EQUAL?\n    | EXCLAMATION EQUAL\n    | EQUAL{2}\n    +++\n    :\n        <\n        ###\n        <=\n        ###\n        >\n        ###\n        >=\n        ###\n        !=\n        ###\n        ==\n        ###\n    ;",
   lit "\n\noperatorLogical\n    : AND{2}\n    | PIPE{2}\n    +++\n    :\n        &&\n        ###\n        ||\n        ###\n    ;",
   lit "\n\nassignment\n    : assignee assignables\n    +++\n    :\n        string myVariable := \"some value\"\n        ###\n        myVariable := \"some value\"\n        ###\n        string myVariable, int myInt := \"some value\", 45\n        ###\n        myVariable, _, otherValue := \"some value\", 456, 335.98\n        ###\n        myVariable = 456.78\n        ###\n        myVariable, _, otherValue = \"some value\", 456, 335.98\n        ###\n    ;",
   lit "\n\nassignee\n    : assigneeNameFirsts COLON EQUAL\n    | assigneeNames EQUAL\n    +++\n    :\n        string myVariable :=\n        ###\n        string myVariable, _, int myInt :=\n        ###\n        myVariable :=\n        ###\n        myVariable =\n        ###\n        _, myVariable =\n        ###\n        _ =\n        ###\n    ;",
   lit "\n\nassigneeNameFirsts\n    : assigneeNameFirst commaAssigneeFirst*\n    +++\n    :\n        string myVariable\n        ###\n        string myVariable, _, myLast,  int myInt\n        ###\n    ;",
   lit "\n\ncommaAssigneeFirst\n    : COMMA assigneeNameFirst\n    +++\n    :\n        , string myVariable\n        ###\n        , myVariable\n        ###\n        , _\n        ###\n    ;",
   lit "\n\nassigneeNameFirst\n    : variableDeclaration\n    | assigneeName\n    +++\n    :\n        string myVariable\n        ###\n        myVariable\n        ###\n        _\n        ###\n    ;",
   lit "\n\nassigneeNames\n    : assigneeName commaAssigneeName*\n    +++\n    :\n        first\n        ###\n        first, _\n        ###\n        _, second, _, fourth, _\n        ###\n        first, _, last\n        ###\n    ;",
   lit "\n\ncommaAssigneeName\n    : COMMA assigneeName\n    +++\n    :\n        , myName\n        ###\n        , _\n        ###\n    ;",
   lit "\n\nassigneeName\n    : variableName\n    | UNDERSCORE\n    +++\n    :\n        myVariable\n        ###\n        _\n        ###\n    ;",
   lit "\n\nassignables\n    : assignable commaAssignable*\n    +++\n    :\n        34, -45.98, \"something\", (((first - second) + third + (fourth / fifth)) * (seventh - height)) - ninth\n        ###\n        34\n        ###\n    ;",
   lit "\n\ncommaAssignable\n    : COMMA assignable\n    +++\n    :\n        ,-456.543\n        ###\n        ,(((first - second) + third + (fourth / fifth)) * (seventh - height)) - ninth\n        ###\n    ;",
   lit "\n\nassignable\n    : totalListAssignable\n    | singleAssignable\n    +++\n    :\n        -456.543\n        ###\n        (((first - second) + third + (fourth / fifth)) * (seventh - height)) - ninth\n        ###\n        [34, -45.98, \"something\", (((first - second) + third + (fourth / fifth)) * (seventh - height)) - ninth]\n        ###\n        []\n        ###\n        [\n            [34, 45, 54, 34],\n            [21, 23, 45, 67]\n        ]\n        ###\n        [34,56,76,87][1:3]\n        ###\n        myList[min:45]\n        ###\n        append myList, 45\n        ###\n        append myList, 45...\n        ###\n        ([\n            [34, 45, 54, 34],\n            [21, 23, 45, 67]\n        ])...\n        ###\n        (append myList, 45)...\n        ###\n    ;",
   lit "\n\nsingleAssignable\n    : declarableValue\n    | operation\n    | listAssignableToAssignables\n    | listFetchElement\n    +++\n    :\n        -456.543\n        ###\n        (((first - second) + third + (fourth / fifth)) * (seventh - height)) - ninth\n        ###\n        append myList, 45...\n        ###\n        ([\n            [34, 45, 54, 34],\n            [21, 23, 45, 67]\n        ])...\n        ###\n        (append myList, 45)...\n        ###\n        [\n            [34, 45, 54, 34],\n            [21, 23, 45, 67]\n        ][1]\n        ###\n        myList[myIndex]\n        ###\n        (append myList, 45)[myIndex]\n        ###\n    ;",
   lit "\n\nlistFetchElement\n    : totalListValue listElementFetcher\n    +++\n    :\n        myList[4]\n        ###\n        [\n            [34, 45, 54, 34],\n            [21, 23, 45, 67]\n        ][1]\n        ###\n        [34,56,76,87][1:3][0]\n        ###\n        myList[min:45][myIndex]\n        ###\n        append myList, 45[23]\n        ###\n    ;",
   lit "\n\nlistElementFetcher\n    : OPEN_SQUARE_BRACKET indexValue CLOSE_SQUARE_BRACKET\n    +++\n    :\n        [34]\n        ###\n        [0]\n        ###\n        [myIndex]\n        ###\n    ;",
   lit "\n\nlistAssignableToAssignables\n    : totalListAssignable DOT{3}\n    | OPEN_PARENTHESIS totalListAssignable CLOSE_PARENTHESIS DOT{3}\n    +++\n    :\n        [\n            [34, 45, 54, 34],\n            [21, 23, 45, 67]\n        ]...\n        ###\n        [34,56,76,87][1:3]...\n        ###\n        myList[min:45]...\n        ###\n        append myList, 45...\n        ###\n        ([\n            [34, 45, 54, 34],\n            [21, 23, 45, 67]\n        ])...\n        ###\n        (append myList, 45)...\n        ###\n    ;",
   lit "\n\ntotalListValue\n    : variableName\n    | totalListAssignable\n    +++\n    :\n        []\n        ###\n        [\n            [34, 45, 54, 34],\n            [21, 23, 45, 67]\n        ]\n        ###\n        [34,56,76,87][1:3]\n        ###\n        myList[min:45]\n        ###\n        append myList, 45\n        ###\n        myVariable\n        ###\n    ;",
   lit "\n\ntotalListAssignable\n    : listValue\n    | slice\n    | listAppend\n    +++\n    :\n        []\n        ###\n        [\n            [34, 45, 54, 34],\n            [21, 23, 45, 67]\n        ]\n        ###\n        [34,56,76,87][1:3]\n        ###\n        myList[min:45]\n        ###\n        append myList, 45\n        ###\n    ;",
   lit "\n\nlistValue\n    : listAssignable\n    | variableName\n    +++\n    :\n        [34, -45.98, \"something\", (((first - second) + third + (fourth / fifth)) * (seventh - height)) - ninth]\n        ###\n        myVariable\n        ###\n    ;",
   lit "\n\nlistAssignable\n    : OPEN_SQUARE_BRACKET assignables? CLOSE_SQUARE_BRACKET\n    +++\n    :\n        [34, -45.98, \"something\", (((first - second) + third + (fourth / fifth)) * (seventh - height)) - ninth]\n        ###\n        []\n        ###\n    ;",
   lit "\n\nintIncrement\n    : variableName intIncrementValue\n    +++\n    :\n        first++\n        ###\n        first--\n        ###\n    ;",
   lit "\n\nintIncrementValue\n    : PLUS PLUS\n    | MINUS MINUS\n    +++\n    :\n        ++\n        ###\n        --\n        ###\n    ;",
   lit "\n\ndeclarableValue\n    : computableValue\n    | primitiveValue\n    +++\n    :\n        -456.654\n        ###\n        \"this is some value\"\n        ###\n    ;",
   lit "\n\ncomputableValue\n    : floatValue\n    | intValue\n    +++\n    :\n        567\n        ###\n        -456.654\n        ###\n    ;",
   lit "\n\nprimitiveValue\n    : boolValue\n    | stringValue\n    +++\n    :\n        true\n        ###\n        \"this is some value\"\n        ###\n    ;",
   lit "\n\nstringValue\n    : # QUOTATION EVERYTHING_EXCEPT_QUOTATION QUOTATION #\n    +++\n    :\n        \"this is some string\"\n        ###\n        \" \"\n        ###\n    ;",
   lit "\n\nboolValue\n    : TRUE\n    | FALSE\n    +++\n    :\n        true\n        ###\n        false\n        ###\n    ;",
   lit "\n\nintValue\n    : MINUS? INT_PATTERN\n    +++\n    :\n        -11\n        ###\n        2345\n        ###\n    ;",
   lit "\n\nfloatValue\n    : MINUS? INT_PATTERN DOT INT_PATTERN\n    +++\n    :\n        -45.789\n        ###\n        345.321\n        ###\n    ;",
   lit "\n\nvariableDeclarations\n    : variableDeclaration commaVariableDeclaration*\n    +++\n    :\n        string myString, int mySecond, uint myThird\n        ###\n        string myValue\n        ###\n    ;",
   lit "\n\ncommaVariableDeclaration\n    : COMMA variableDeclaration\n    +++\n    :\n        , string myString\n        ###\n    ;",
   lit "\n\nvariableDeclaration\n    : declarativeType variableName\n    +++\n    :\n        uint myUintValue\n        ###\n        list<string> myList\n        ###\n    ;",
   lit "\n\ndeclarativeType\n    : primitiveType\n    | computableType\n    | listType\n    +++\n    :\n        bool\n        ###\n        int\n        ###\n        list<int>\n        ###\n        list<list<int>>\n        ###\n    ;",
   lit "\n\nlistType\n    : LIST LESS declarativeType MORE\n    +++\n    :\n        list<string>\n        ###\n        list<int>\n        ###\n        list<list<int>>\n        ###\n    ;",
   lit "\n\nprimitiveType\n    : BOOL\n    | STRING\n    +++\n    :\n        bool\n        ###\n        string\n        ###\n    ;",
   lit "\n\n\ncomputableType\n    : FLOAT\n    | UINT\n    | INT\n    +++\n    :\n        uint\n        ###\n        int\n        ###\n        float\n        ###\n    ;",
   lit "\n\nvariableName\n    : # FIRST_LETTER MIN_MAJ_LETTERS #\n    +++\n    :\n        myVariable\n        ###\n    ;"]
/-- What follows the last semicolon. The end of the file read by `scripts/test_helper.go:39-42`. -/
def tokensEnd : Str := lit "\n"
/-- The whole `tokens.alex`, read by `scripts/test_helper.go:39-42`. -/
def tokensAlex : Str := tokensPieces.flatten ++ tokensEnd

/-- `channels.alex`, 112 bytes. Read by `scripts/test_helper.go:39-42`. -/
def channelsPieces : List Str :=
  [lit "whiteSpaces\n\t: WHITESPACES\n\t;",
   lit "\n\nmultiLineComment\n\t: MULTI_LINE_COMMENT\n\t;",
   lit "\n\nlineComment\n\t: SINGLE_LINE_COMMENT\n\t;"]
/-- What follows the last semicolon. The end of the file read by `scripts/test_helper.go:39-42`. -/
def channelsEnd : Str := lit "\n"
/-- The whole `channels.alex`, read by `scripts/test_helper.go:39-42`. -/
def channelsAlex : Str := channelsPieces.flatten ++ channelsEnd

end Verif.Base
