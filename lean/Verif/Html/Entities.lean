/-
The table of named character references.

`src/vaev-engine/html/defs/entities.inc:1-2231`, read by `html/lexer.cpp:15-31`.  Every row is
kept, in the order of the file; the names are written without their leading `&`.  The file is
cut into parts only because one literal of this length is slow to elaborate.
-/
namespace Verif.Html

/-- A row of the table: a name without its `&`, and the code points it stands for.
`html/lexer.cpp:15-31`. -/
structure Row where
  key : List Char
  points : List Nat

/-- `k!"lt;"` is the list `['l', 't', ';']`; the list is written out when the file is
elaborated, because taking a string apart is slow in the kernel. -/
macro "k!" s:str : term => do
  let cs : Array (Lean.TSyntax `term) :=
    (s.getString.toList.map fun c => (⟨Lean.Syntax.mkCharLit c⟩ : Lean.TSyntax `term)).toArray
  `([$cs,*])

/-- `html/defs/entities.inc:1-100`. -/
def rows0 : List Row := [
  ⟨k!"AElig", [198]⟩, ⟨k!"AElig;", [198]⟩, ⟨k!"AMP", [38]⟩, ⟨k!"AMP;", [38]⟩, ⟨k!"Aacute", [193]⟩,
  ⟨k!"Aacute;", [193]⟩, ⟨k!"Abreve;", [258]⟩, ⟨k!"Acirc", [194]⟩, ⟨k!"Acirc;", [194]⟩,
  ⟨k!"Acy;", [1040]⟩, ⟨k!"Afr;", [120068]⟩, ⟨k!"Agrave", [192]⟩, ⟨k!"Agrave;", [192]⟩,
  ⟨k!"Alpha;", [913]⟩, ⟨k!"Amacr;", [256]⟩, ⟨k!"And;", [10835]⟩, ⟨k!"Aogon;", [260]⟩,
  ⟨k!"Aopf;", [120120]⟩, ⟨k!"ApplyFunction;", [8289]⟩, ⟨k!"Aring", [197]⟩, ⟨k!"Aring;", [197]⟩,
  ⟨k!"Ascr;", [119964]⟩, ⟨k!"Assign;", [8788]⟩, ⟨k!"Atilde", [195]⟩, ⟨k!"Atilde;", [195]⟩,
  ⟨k!"Auml", [196]⟩, ⟨k!"Auml;", [196]⟩, ⟨k!"Backslash;", [8726]⟩, ⟨k!"Barv;", [10983]⟩,
  ⟨k!"Barwed;", [8966]⟩, ⟨k!"Bcy;", [1041]⟩, ⟨k!"Because;", [8757]⟩, ⟨k!"Bernoullis;", [8492]⟩,
  ⟨k!"Beta;", [914]⟩, ⟨k!"Bfr;", [120069]⟩, ⟨k!"Bopf;", [120121]⟩, ⟨k!"Breve;", [728]⟩,
  ⟨k!"Bscr;", [8492]⟩, ⟨k!"Bumpeq;", [8782]⟩, ⟨k!"CHcy;", [1063]⟩, ⟨k!"COPY", [169]⟩,
  ⟨k!"COPY;", [169]⟩, ⟨k!"Cacute;", [262]⟩, ⟨k!"Cap;", [8914]⟩,
  ⟨k!"CapitalDifferentialD;", [8517]⟩, ⟨k!"Cayleys;", [8493]⟩, ⟨k!"Ccaron;", [268]⟩,
  ⟨k!"Ccedil", [199]⟩, ⟨k!"Ccedil;", [199]⟩, ⟨k!"Ccirc;", [264]⟩, ⟨k!"Cconint;", [8752]⟩,
  ⟨k!"Cdot;", [266]⟩, ⟨k!"Cedilla;", [184]⟩, ⟨k!"CenterDot;", [183]⟩, ⟨k!"Cfr;", [8493]⟩,
  ⟨k!"Chi;", [935]⟩, ⟨k!"CircleDot;", [8857]⟩, ⟨k!"CircleMinus;", [8854]⟩,
  ⟨k!"CirclePlus;", [8853]⟩, ⟨k!"CircleTimes;", [8855]⟩, ⟨k!"ClockwiseContourIntegral;", [8754]⟩,
  ⟨k!"CloseCurlyDoubleQuote;", [8221]⟩, ⟨k!"CloseCurlyQuote;", [8217]⟩, ⟨k!"Colon;", [8759]⟩,
  ⟨k!"Colone;", [10868]⟩, ⟨k!"Congruent;", [8801]⟩, ⟨k!"Conint;", [8751]⟩,
  ⟨k!"ContourIntegral;", [8750]⟩, ⟨k!"Copf;", [8450]⟩, ⟨k!"Coproduct;", [8720]⟩,
  ⟨k!"CounterClockwiseContourIntegral;", [8755]⟩, ⟨k!"Cross;", [10799]⟩, ⟨k!"Cscr;", [119966]⟩,
  ⟨k!"Cup;", [8915]⟩, ⟨k!"CupCap;", [8781]⟩, ⟨k!"DD;", [8517]⟩, ⟨k!"DDotrahd;", [10513]⟩,
  ⟨k!"DJcy;", [1026]⟩, ⟨k!"DScy;", [1029]⟩, ⟨k!"DZcy;", [1039]⟩, ⟨k!"Dagger;", [8225]⟩,
  ⟨k!"Darr;", [8609]⟩, ⟨k!"Dashv;", [10980]⟩, ⟨k!"Dcaron;", [270]⟩, ⟨k!"Dcy;", [1044]⟩,
  ⟨k!"Del;", [8711]⟩, ⟨k!"Delta;", [916]⟩, ⟨k!"Dfr;", [120071]⟩, ⟨k!"DiacriticalAcute;", [180]⟩,
  ⟨k!"DiacriticalDot;", [729]⟩, ⟨k!"DiacriticalDoubleAcute;", [733]⟩,
  ⟨k!"DiacriticalGrave;", [96]⟩, ⟨k!"DiacriticalTilde;", [732]⟩, ⟨k!"Diamond;", [8900]⟩,
  ⟨k!"DifferentialD;", [8518]⟩, ⟨k!"Dopf;", [120123]⟩, ⟨k!"Dot;", [168]⟩, ⟨k!"DotDot;", [8412]⟩,
  ⟨k!"DotEqual;", [8784]⟩, ⟨k!"DoubleContourIntegral;", [8751]⟩]

/-- `html/defs/entities.inc:101-200`. -/
def rows1 : List Row := [
  ⟨k!"DoubleDot;", [168]⟩, ⟨k!"DoubleDownArrow;", [8659]⟩, ⟨k!"DoubleLeftArrow;", [8656]⟩,
  ⟨k!"DoubleLeftRightArrow;", [8660]⟩, ⟨k!"DoubleLeftTee;", [10980]⟩,
  ⟨k!"DoubleLongLeftArrow;", [10232]⟩, ⟨k!"DoubleLongLeftRightArrow;", [10234]⟩,
  ⟨k!"DoubleLongRightArrow;", [10233]⟩, ⟨k!"DoubleRightArrow;", [8658]⟩,
  ⟨k!"DoubleRightTee;", [8872]⟩, ⟨k!"DoubleUpArrow;", [8657]⟩, ⟨k!"DoubleUpDownArrow;", [8661]⟩,
  ⟨k!"DoubleVerticalBar;", [8741]⟩, ⟨k!"DownArrow;", [8595]⟩, ⟨k!"DownArrowBar;", [10515]⟩,
  ⟨k!"DownArrowUpArrow;", [8693]⟩, ⟨k!"DownBreve;", [785]⟩, ⟨k!"DownLeftRightVector;", [10576]⟩,
  ⟨k!"DownLeftTeeVector;", [10590]⟩, ⟨k!"DownLeftVector;", [8637]⟩,
  ⟨k!"DownLeftVectorBar;", [10582]⟩, ⟨k!"DownRightTeeVector;", [10591]⟩,
  ⟨k!"DownRightVector;", [8641]⟩, ⟨k!"DownRightVectorBar;", [10583]⟩, ⟨k!"DownTee;", [8868]⟩,
  ⟨k!"DownTeeArrow;", [8615]⟩, ⟨k!"Downarrow;", [8659]⟩, ⟨k!"Dscr;", [119967]⟩,
  ⟨k!"Dstrok;", [272]⟩, ⟨k!"ENG;", [330]⟩, ⟨k!"ETH", [208]⟩, ⟨k!"ETH;", [208]⟩,
  ⟨k!"Eacute", [201]⟩, ⟨k!"Eacute;", [201]⟩, ⟨k!"Ecaron;", [282]⟩, ⟨k!"Ecirc", [202]⟩,
  ⟨k!"Ecirc;", [202]⟩, ⟨k!"Ecy;", [1069]⟩, ⟨k!"Edot;", [278]⟩, ⟨k!"Efr;", [120072]⟩,
  ⟨k!"Egrave", [200]⟩, ⟨k!"Egrave;", [200]⟩, ⟨k!"Element;", [8712]⟩, ⟨k!"Emacr;", [274]⟩,
  ⟨k!"EmptySmallSquare;", [9723]⟩, ⟨k!"EmptyVerySmallSquare;", [9643]⟩, ⟨k!"Eogon;", [280]⟩,
  ⟨k!"Eopf;", [120124]⟩, ⟨k!"Epsilon;", [917]⟩, ⟨k!"Equal;", [10869]⟩, ⟨k!"EqualTilde;", [8770]⟩,
  ⟨k!"Equilibrium;", [8652]⟩, ⟨k!"Escr;", [8496]⟩, ⟨k!"Esim;", [10867]⟩, ⟨k!"Eta;", [919]⟩,
  ⟨k!"Euml", [203]⟩, ⟨k!"Euml;", [203]⟩, ⟨k!"Exists;", [8707]⟩, ⟨k!"ExponentialE;", [8519]⟩,
  ⟨k!"Fcy;", [1060]⟩, ⟨k!"Ffr;", [120073]⟩, ⟨k!"FilledSmallSquare;", [9724]⟩,
  ⟨k!"FilledVerySmallSquare;", [9642]⟩, ⟨k!"Fopf;", [120125]⟩, ⟨k!"ForAll;", [8704]⟩,
  ⟨k!"Fouriertrf;", [8497]⟩, ⟨k!"Fscr;", [8497]⟩, ⟨k!"GJcy;", [1027]⟩, ⟨k!"GT", [62]⟩,
  ⟨k!"GT;", [62]⟩, ⟨k!"Gamma;", [915]⟩, ⟨k!"Gammad;", [988]⟩, ⟨k!"Gbreve;", [286]⟩,
  ⟨k!"Gcedil;", [290]⟩, ⟨k!"Gcirc;", [284]⟩, ⟨k!"Gcy;", [1043]⟩, ⟨k!"Gdot;", [288]⟩,
  ⟨k!"Gfr;", [120074]⟩, ⟨k!"Gg;", [8921]⟩, ⟨k!"Gopf;", [120126]⟩, ⟨k!"GreaterEqual;", [8805]⟩,
  ⟨k!"GreaterEqualLess;", [8923]⟩, ⟨k!"GreaterFullEqual;", [8807]⟩,
  ⟨k!"GreaterGreater;", [10914]⟩, ⟨k!"GreaterLess;", [8823]⟩, ⟨k!"GreaterSlantEqual;", [10878]⟩,
  ⟨k!"GreaterTilde;", [8819]⟩, ⟨k!"Gscr;", [119970]⟩, ⟨k!"Gt;", [8811]⟩, ⟨k!"HARDcy;", [1066]⟩,
  ⟨k!"Hacek;", [711]⟩, ⟨k!"Hat;", [94]⟩, ⟨k!"Hcirc;", [292]⟩, ⟨k!"Hfr;", [8460]⟩,
  ⟨k!"HilbertSpace;", [8459]⟩, ⟨k!"Hopf;", [8461]⟩, ⟨k!"HorizontalLine;", [9472]⟩,
  ⟨k!"Hscr;", [8459]⟩, ⟨k!"Hstrok;", [294]⟩, ⟨k!"HumpDownHump;", [8782]⟩]

/-- `html/defs/entities.inc:201-300`. -/
def rows2 : List Row := [
  ⟨k!"HumpEqual;", [8783]⟩, ⟨k!"IEcy;", [1045]⟩, ⟨k!"IJlig;", [306]⟩, ⟨k!"IOcy;", [1025]⟩,
  ⟨k!"Iacute", [205]⟩, ⟨k!"Iacute;", [205]⟩, ⟨k!"Icirc", [206]⟩, ⟨k!"Icirc;", [206]⟩,
  ⟨k!"Icy;", [1048]⟩, ⟨k!"Idot;", [304]⟩, ⟨k!"Ifr;", [8465]⟩, ⟨k!"Igrave", [204]⟩,
  ⟨k!"Igrave;", [204]⟩, ⟨k!"Im;", [8465]⟩, ⟨k!"Imacr;", [298]⟩, ⟨k!"ImaginaryI;", [8520]⟩,
  ⟨k!"Implies;", [8658]⟩, ⟨k!"Int;", [8748]⟩, ⟨k!"Integral;", [8747]⟩,
  ⟨k!"Intersection;", [8898]⟩, ⟨k!"InvisibleComma;", [8291]⟩, ⟨k!"InvisibleTimes;", [8290]⟩,
  ⟨k!"Iogon;", [302]⟩, ⟨k!"Iopf;", [120128]⟩, ⟨k!"Iota;", [921]⟩, ⟨k!"Iscr;", [8464]⟩,
  ⟨k!"Itilde;", [296]⟩, ⟨k!"Iukcy;", [1030]⟩, ⟨k!"Iuml", [207]⟩, ⟨k!"Iuml;", [207]⟩,
  ⟨k!"Jcirc;", [308]⟩, ⟨k!"Jcy;", [1049]⟩, ⟨k!"Jfr;", [120077]⟩, ⟨k!"Jopf;", [120129]⟩,
  ⟨k!"Jscr;", [119973]⟩, ⟨k!"Jsercy;", [1032]⟩, ⟨k!"Jukcy;", [1028]⟩, ⟨k!"KHcy;", [1061]⟩,
  ⟨k!"KJcy;", [1036]⟩, ⟨k!"Kappa;", [922]⟩, ⟨k!"Kcedil;", [310]⟩, ⟨k!"Kcy;", [1050]⟩,
  ⟨k!"Kfr;", [120078]⟩, ⟨k!"Kopf;", [120130]⟩, ⟨k!"Kscr;", [119974]⟩, ⟨k!"LJcy;", [1033]⟩,
  ⟨k!"LT", [60]⟩, ⟨k!"LT;", [60]⟩, ⟨k!"Lacute;", [313]⟩, ⟨k!"Lambda;", [923]⟩,
  ⟨k!"Lang;", [10218]⟩, ⟨k!"Laplacetrf;", [8466]⟩, ⟨k!"Larr;", [8606]⟩, ⟨k!"Lcaron;", [317]⟩,
  ⟨k!"Lcedil;", [315]⟩, ⟨k!"Lcy;", [1051]⟩, ⟨k!"LeftAngleBracket;", [10216]⟩,
  ⟨k!"LeftArrow;", [8592]⟩, ⟨k!"LeftArrowBar;", [8676]⟩, ⟨k!"LeftArrowRightArrow;", [8646]⟩,
  ⟨k!"LeftCeiling;", [8968]⟩, ⟨k!"LeftDoubleBracket;", [10214]⟩,
  ⟨k!"LeftDownTeeVector;", [10593]⟩, ⟨k!"LeftDownVector;", [8643]⟩,
  ⟨k!"LeftDownVectorBar;", [10585]⟩, ⟨k!"LeftFloor;", [8970]⟩, ⟨k!"LeftRightArrow;", [8596]⟩,
  ⟨k!"LeftRightVector;", [10574]⟩, ⟨k!"LeftTee;", [8867]⟩, ⟨k!"LeftTeeArrow;", [8612]⟩,
  ⟨k!"LeftTeeVector;", [10586]⟩, ⟨k!"LeftTriangle;", [8882]⟩, ⟨k!"LeftTriangleBar;", [10703]⟩,
  ⟨k!"LeftTriangleEqual;", [8884]⟩, ⟨k!"LeftUpDownVector;", [10577]⟩,
  ⟨k!"LeftUpTeeVector;", [10592]⟩, ⟨k!"LeftUpVector;", [8639]⟩, ⟨k!"LeftUpVectorBar;", [10584]⟩,
  ⟨k!"LeftVector;", [8636]⟩, ⟨k!"LeftVectorBar;", [10578]⟩, ⟨k!"Leftarrow;", [8656]⟩,
  ⟨k!"Leftrightarrow;", [8660]⟩, ⟨k!"LessEqualGreater;", [8922]⟩, ⟨k!"LessFullEqual;", [8806]⟩,
  ⟨k!"LessGreater;", [8822]⟩, ⟨k!"LessLess;", [10913]⟩, ⟨k!"LessSlantEqual;", [10877]⟩,
  ⟨k!"LessTilde;", [8818]⟩, ⟨k!"Lfr;", [120079]⟩, ⟨k!"Ll;", [8920]⟩, ⟨k!"Lleftarrow;", [8666]⟩,
  ⟨k!"Lmidot;", [319]⟩, ⟨k!"LongLeftArrow;", [10229]⟩, ⟨k!"LongLeftRightArrow;", [10231]⟩,
  ⟨k!"LongRightArrow;", [10230]⟩, ⟨k!"Longleftarrow;", [10232]⟩,
  ⟨k!"Longleftrightarrow;", [10234]⟩, ⟨k!"Longrightarrow;", [10233]⟩, ⟨k!"Lopf;", [120131]⟩,
  ⟨k!"LowerLeftArrow;", [8601]⟩]

/-- `html/defs/entities.inc:301-400`. -/
def rows3 : List Row := [
  ⟨k!"LowerRightArrow;", [8600]⟩, ⟨k!"Lscr;", [8466]⟩, ⟨k!"Lsh;", [8624]⟩, ⟨k!"Lstrok;", [321]⟩,
  ⟨k!"Lt;", [8810]⟩, ⟨k!"Map;", [10501]⟩, ⟨k!"Mcy;", [1052]⟩, ⟨k!"MediumSpace;", [8287]⟩,
  ⟨k!"Mellintrf;", [8499]⟩, ⟨k!"Mfr;", [120080]⟩, ⟨k!"MinusPlus;", [8723]⟩, ⟨k!"Mopf;", [120132]⟩,
  ⟨k!"Mscr;", [8499]⟩, ⟨k!"Mu;", [924]⟩, ⟨k!"NJcy;", [1034]⟩, ⟨k!"Nacute;", [323]⟩,
  ⟨k!"Ncaron;", [327]⟩, ⟨k!"Ncedil;", [325]⟩, ⟨k!"Ncy;", [1053]⟩,
  ⟨k!"NegativeMediumSpace;", [8203]⟩, ⟨k!"NegativeThickSpace;", [8203]⟩,
  ⟨k!"NegativeThinSpace;", [8203]⟩, ⟨k!"NegativeVeryThinSpace;", [8203]⟩,
  ⟨k!"NestedGreaterGreater;", [8811]⟩, ⟨k!"NestedLessLess;", [8810]⟩, ⟨k!"NewLine;", [10]⟩,
  ⟨k!"Nfr;", [120081]⟩, ⟨k!"NoBreak;", [8288]⟩, ⟨k!"NonBreakingSpace;", [160]⟩,
  ⟨k!"Nopf;", [8469]⟩, ⟨k!"Not;", [10988]⟩, ⟨k!"NotCongruent;", [8802]⟩, ⟨k!"NotCupCap;", [8813]⟩,
  ⟨k!"NotDoubleVerticalBar;", [8742]⟩, ⟨k!"NotElement;", [8713]⟩, ⟨k!"NotEqual;", [8800]⟩,
  ⟨k!"NotEqualTilde;", [8770, 824]⟩, ⟨k!"NotExists;", [8708]⟩, ⟨k!"NotGreater;", [8815]⟩,
  ⟨k!"NotGreaterEqual;", [8817]⟩, ⟨k!"NotGreaterFullEqual;", [8807, 824]⟩,
  ⟨k!"NotGreaterGreater;", [8811, 824]⟩, ⟨k!"NotGreaterLess;", [8825]⟩,
  ⟨k!"NotGreaterSlantEqual;", [10878, 824]⟩, ⟨k!"NotGreaterTilde;", [8821]⟩,
  ⟨k!"NotHumpDownHump;", [8782, 824]⟩, ⟨k!"NotHumpEqual;", [8783, 824]⟩,
  ⟨k!"NotLeftTriangle;", [8938]⟩, ⟨k!"NotLeftTriangleBar;", [10703, 824]⟩,
  ⟨k!"NotLeftTriangleEqual;", [8940]⟩, ⟨k!"NotLess;", [8814]⟩, ⟨k!"NotLessEqual;", [8816]⟩,
  ⟨k!"NotLessGreater;", [8824]⟩, ⟨k!"NotLessLess;", [8810, 824]⟩,
  ⟨k!"NotLessSlantEqual;", [10877, 824]⟩, ⟨k!"NotLessTilde;", [8820]⟩,
  ⟨k!"NotNestedGreaterGreater;", [10914, 824]⟩, ⟨k!"NotNestedLessLess;", [10913, 824]⟩,
  ⟨k!"NotPrecedes;", [8832]⟩, ⟨k!"NotPrecedesEqual;", [10927, 824]⟩,
  ⟨k!"NotPrecedesSlantEqual;", [8928]⟩, ⟨k!"NotReverseElement;", [8716]⟩,
  ⟨k!"NotRightTriangle;", [8939]⟩, ⟨k!"NotRightTriangleBar;", [10704, 824]⟩,
  ⟨k!"NotRightTriangleEqual;", [8941]⟩, ⟨k!"NotSquareSubset;", [8847, 824]⟩,
  ⟨k!"NotSquareSubsetEqual;", [8930]⟩, ⟨k!"NotSquareSuperset;", [8848, 824]⟩,
  ⟨k!"NotSquareSupersetEqual;", [8931]⟩, ⟨k!"NotSubset;", [8834, 8402]⟩,
  ⟨k!"NotSubsetEqual;", [8840]⟩, ⟨k!"NotSucceeds;", [8833]⟩,
  ⟨k!"NotSucceedsEqual;", [10928, 824]⟩, ⟨k!"NotSucceedsSlantEqual;", [8929]⟩,
  ⟨k!"NotSucceedsTilde;", [8831, 824]⟩, ⟨k!"NotSuperset;", [8835, 8402]⟩,
  ⟨k!"NotSupersetEqual;", [8841]⟩, ⟨k!"NotTilde;", [8769]⟩, ⟨k!"NotTildeEqual;", [8772]⟩,
  ⟨k!"NotTildeFullEqual;", [8775]⟩, ⟨k!"NotTildeTilde;", [8777]⟩, ⟨k!"NotVerticalBar;", [8740]⟩,
  ⟨k!"Nscr;", [119977]⟩, ⟨k!"Ntilde", [209]⟩, ⟨k!"Ntilde;", [209]⟩, ⟨k!"Nu;", [925]⟩,
  ⟨k!"OElig;", [338]⟩, ⟨k!"Oacute", [211]⟩, ⟨k!"Oacute;", [211]⟩, ⟨k!"Ocirc", [212]⟩,
  ⟨k!"Ocirc;", [212]⟩, ⟨k!"Ocy;", [1054]⟩, ⟨k!"Odblac;", [336]⟩, ⟨k!"Ofr;", [120082]⟩,
  ⟨k!"Ograve", [210]⟩, ⟨k!"Ograve;", [210]⟩, ⟨k!"Omacr;", [332]⟩, ⟨k!"Omega;", [937]⟩,
  ⟨k!"Omicron;", [927]⟩, ⟨k!"Oopf;", [120134]⟩]

/-- `html/defs/entities.inc:401-500`. -/
def rows4 : List Row := [
  ⟨k!"OpenCurlyDoubleQuote;", [8220]⟩, ⟨k!"OpenCurlyQuote;", [8216]⟩, ⟨k!"Or;", [10836]⟩,
  ⟨k!"Oscr;", [119978]⟩, ⟨k!"Oslash", [216]⟩, ⟨k!"Oslash;", [216]⟩, ⟨k!"Otilde", [213]⟩,
  ⟨k!"Otilde;", [213]⟩, ⟨k!"Otimes;", [10807]⟩, ⟨k!"Ouml", [214]⟩, ⟨k!"Ouml;", [214]⟩,
  ⟨k!"OverBar;", [8254]⟩, ⟨k!"OverBrace;", [9182]⟩, ⟨k!"OverBracket;", [9140]⟩,
  ⟨k!"OverParenthesis;", [9180]⟩, ⟨k!"PartialD;", [8706]⟩, ⟨k!"Pcy;", [1055]⟩,
  ⟨k!"Pfr;", [120083]⟩, ⟨k!"Phi;", [934]⟩, ⟨k!"Pi;", [928]⟩, ⟨k!"PlusMinus;", [177]⟩,
  ⟨k!"Poincareplane;", [8460]⟩, ⟨k!"Popf;", [8473]⟩, ⟨k!"Pr;", [10939]⟩, ⟨k!"Precedes;", [8826]⟩,
  ⟨k!"PrecedesEqual;", [10927]⟩, ⟨k!"PrecedesSlantEqual;", [8828]⟩, ⟨k!"PrecedesTilde;", [8830]⟩,
  ⟨k!"Prime;", [8243]⟩, ⟨k!"Product;", [8719]⟩, ⟨k!"Proportion;", [8759]⟩,
  ⟨k!"Proportional;", [8733]⟩, ⟨k!"Pscr;", [119979]⟩, ⟨k!"Psi;", [936]⟩, ⟨k!"QUOT", [34]⟩,
  ⟨k!"QUOT;", [34]⟩, ⟨k!"Qfr;", [120084]⟩, ⟨k!"Qopf;", [8474]⟩, ⟨k!"Qscr;", [119980]⟩,
  ⟨k!"RBarr;", [10512]⟩, ⟨k!"REG", [174]⟩, ⟨k!"REG;", [174]⟩, ⟨k!"Racute;", [340]⟩,
  ⟨k!"Rang;", [10219]⟩, ⟨k!"Rarr;", [8608]⟩, ⟨k!"Rarrtl;", [10518]⟩, ⟨k!"Rcaron;", [344]⟩,
  ⟨k!"Rcedil;", [342]⟩, ⟨k!"Rcy;", [1056]⟩, ⟨k!"Re;", [8476]⟩, ⟨k!"ReverseElement;", [8715]⟩,
  ⟨k!"ReverseEquilibrium;", [8651]⟩, ⟨k!"ReverseUpEquilibrium;", [10607]⟩, ⟨k!"Rfr;", [8476]⟩,
  ⟨k!"Rho;", [929]⟩, ⟨k!"RightAngleBracket;", [10217]⟩, ⟨k!"RightArrow;", [8594]⟩,
  ⟨k!"RightArrowBar;", [8677]⟩, ⟨k!"RightArrowLeftArrow;", [8644]⟩, ⟨k!"RightCeiling;", [8969]⟩,
  ⟨k!"RightDoubleBracket;", [10215]⟩, ⟨k!"RightDownTeeVector;", [10589]⟩,
  ⟨k!"RightDownVector;", [8642]⟩, ⟨k!"RightDownVectorBar;", [10581]⟩, ⟨k!"RightFloor;", [8971]⟩,
  ⟨k!"RightTee;", [8866]⟩, ⟨k!"RightTeeArrow;", [8614]⟩, ⟨k!"RightTeeVector;", [10587]⟩,
  ⟨k!"RightTriangle;", [8883]⟩, ⟨k!"RightTriangleBar;", [10704]⟩,
  ⟨k!"RightTriangleEqual;", [8885]⟩, ⟨k!"RightUpDownVector;", [10575]⟩,
  ⟨k!"RightUpTeeVector;", [10588]⟩, ⟨k!"RightUpVector;", [8638]⟩,
  ⟨k!"RightUpVectorBar;", [10580]⟩, ⟨k!"RightVector;", [8640]⟩, ⟨k!"RightVectorBar;", [10579]⟩,
  ⟨k!"Rightarrow;", [8658]⟩, ⟨k!"Ropf;", [8477]⟩, ⟨k!"RoundImplies;", [10608]⟩,
  ⟨k!"Rrightarrow;", [8667]⟩, ⟨k!"Rscr;", [8475]⟩, ⟨k!"Rsh;", [8625]⟩,
  ⟨k!"RuleDelayed;", [10740]⟩, ⟨k!"SHCHcy;", [1065]⟩, ⟨k!"SHcy;", [1064]⟩, ⟨k!"SOFTcy;", [1068]⟩,
  ⟨k!"Sacute;", [346]⟩, ⟨k!"Sc;", [10940]⟩, ⟨k!"Scaron;", [352]⟩, ⟨k!"Scedil;", [350]⟩,
  ⟨k!"Scirc;", [348]⟩, ⟨k!"Scy;", [1057]⟩, ⟨k!"Sfr;", [120086]⟩, ⟨k!"ShortDownArrow;", [8595]⟩,
  ⟨k!"ShortLeftArrow;", [8592]⟩, ⟨k!"ShortRightArrow;", [8594]⟩, ⟨k!"ShortUpArrow;", [8593]⟩,
  ⟨k!"Sigma;", [931]⟩, ⟨k!"SmallCircle;", [8728]⟩]

/-- `html/defs/entities.inc:501-600`. -/
def rows5 : List Row := [
  ⟨k!"Sopf;", [120138]⟩, ⟨k!"Sqrt;", [8730]⟩, ⟨k!"Square;", [9633]⟩,
  ⟨k!"SquareIntersection;", [8851]⟩, ⟨k!"SquareSubset;", [8847]⟩,
  ⟨k!"SquareSubsetEqual;", [8849]⟩, ⟨k!"SquareSuperset;", [8848]⟩,
  ⟨k!"SquareSupersetEqual;", [8850]⟩, ⟨k!"SquareUnion;", [8852]⟩, ⟨k!"Sscr;", [119982]⟩,
  ⟨k!"Star;", [8902]⟩, ⟨k!"Sub;", [8912]⟩, ⟨k!"Subset;", [8912]⟩, ⟨k!"SubsetEqual;", [8838]⟩,
  ⟨k!"Succeeds;", [8827]⟩, ⟨k!"SucceedsEqual;", [10928]⟩, ⟨k!"SucceedsSlantEqual;", [8829]⟩,
  ⟨k!"SucceedsTilde;", [8831]⟩, ⟨k!"SuchThat;", [8715]⟩, ⟨k!"Sum;", [8721]⟩, ⟨k!"Sup;", [8913]⟩,
  ⟨k!"Superset;", [8835]⟩, ⟨k!"SupersetEqual;", [8839]⟩, ⟨k!"Supset;", [8913]⟩,
  ⟨k!"THORN", [222]⟩, ⟨k!"THORN;", [222]⟩, ⟨k!"TRADE;", [8482]⟩, ⟨k!"TSHcy;", [1035]⟩,
  ⟨k!"TScy;", [1062]⟩, ⟨k!"Tab;", [9]⟩, ⟨k!"Tau;", [932]⟩, ⟨k!"Tcaron;", [356]⟩,
  ⟨k!"Tcedil;", [354]⟩, ⟨k!"Tcy;", [1058]⟩, ⟨k!"Tfr;", [120087]⟩, ⟨k!"Therefore;", [8756]⟩,
  ⟨k!"Theta;", [920]⟩, ⟨k!"ThickSpace;", [8287, 8202]⟩, ⟨k!"ThinSpace;", [8201]⟩,
  ⟨k!"Tilde;", [8764]⟩, ⟨k!"TildeEqual;", [8771]⟩, ⟨k!"TildeFullEqual;", [8773]⟩,
  ⟨k!"TildeTilde;", [8776]⟩, ⟨k!"Topf;", [120139]⟩, ⟨k!"TripleDot;", [8411]⟩,
  ⟨k!"Tscr;", [119983]⟩, ⟨k!"Tstrok;", [358]⟩, ⟨k!"Uacute", [218]⟩, ⟨k!"Uacute;", [218]⟩,
  ⟨k!"Uarr;", [8607]⟩, ⟨k!"Uarrocir;", [10569]⟩, ⟨k!"Ubrcy;", [1038]⟩, ⟨k!"Ubreve;", [364]⟩,
  ⟨k!"Ucirc", [219]⟩, ⟨k!"Ucirc;", [219]⟩, ⟨k!"Ucy;", [1059]⟩, ⟨k!"Udblac;", [368]⟩,
  ⟨k!"Ufr;", [120088]⟩, ⟨k!"Ugrave", [217]⟩, ⟨k!"Ugrave;", [217]⟩, ⟨k!"Umacr;", [362]⟩,
  ⟨k!"UnderBar;", [95]⟩, ⟨k!"UnderBrace;", [9183]⟩, ⟨k!"UnderBracket;", [9141]⟩,
  ⟨k!"UnderParenthesis;", [9181]⟩, ⟨k!"Union;", [8899]⟩, ⟨k!"UnionPlus;", [8846]⟩,
  ⟨k!"Uogon;", [370]⟩, ⟨k!"Uopf;", [120140]⟩, ⟨k!"UpArrow;", [8593]⟩, ⟨k!"UpArrowBar;", [10514]⟩,
  ⟨k!"UpArrowDownArrow;", [8645]⟩, ⟨k!"UpDownArrow;", [8597]⟩, ⟨k!"UpEquilibrium;", [10606]⟩,
  ⟨k!"UpTee;", [8869]⟩, ⟨k!"UpTeeArrow;", [8613]⟩, ⟨k!"Uparrow;", [8657]⟩,
  ⟨k!"Updownarrow;", [8661]⟩, ⟨k!"UpperLeftArrow;", [8598]⟩, ⟨k!"UpperRightArrow;", [8599]⟩,
  ⟨k!"Upsi;", [978]⟩, ⟨k!"Upsilon;", [933]⟩, ⟨k!"Uring;", [366]⟩, ⟨k!"Uscr;", [119984]⟩,
  ⟨k!"Utilde;", [360]⟩, ⟨k!"Uuml", [220]⟩, ⟨k!"Uuml;", [220]⟩, ⟨k!"VDash;", [8875]⟩,
  ⟨k!"Vbar;", [10987]⟩, ⟨k!"Vcy;", [1042]⟩, ⟨k!"Vdash;", [8873]⟩, ⟨k!"Vdashl;", [10982]⟩,
  ⟨k!"Vee;", [8897]⟩, ⟨k!"Verbar;", [8214]⟩, ⟨k!"Vert;", [8214]⟩, ⟨k!"VerticalBar;", [8739]⟩,
  ⟨k!"VerticalLine;", [124]⟩, ⟨k!"VerticalSeparator;", [10072]⟩, ⟨k!"VerticalTilde;", [8768]⟩,
  ⟨k!"VeryThinSpace;", [8202]⟩]

/-- `html/defs/entities.inc:601-700`. -/
def rows6 : List Row := [
  ⟨k!"Vfr;", [120089]⟩, ⟨k!"Vopf;", [120141]⟩, ⟨k!"Vscr;", [119985]⟩, ⟨k!"Vvdash;", [8874]⟩,
  ⟨k!"Wcirc;", [372]⟩, ⟨k!"Wedge;", [8896]⟩, ⟨k!"Wfr;", [120090]⟩, ⟨k!"Wopf;", [120142]⟩,
  ⟨k!"Wscr;", [119986]⟩, ⟨k!"Xfr;", [120091]⟩, ⟨k!"Xi;", [926]⟩, ⟨k!"Xopf;", [120143]⟩,
  ⟨k!"Xscr;", [119987]⟩, ⟨k!"YAcy;", [1071]⟩, ⟨k!"YIcy;", [1031]⟩, ⟨k!"YUcy;", [1070]⟩,
  ⟨k!"Yacute", [221]⟩, ⟨k!"Yacute;", [221]⟩, ⟨k!"Ycirc;", [374]⟩, ⟨k!"Ycy;", [1067]⟩,
  ⟨k!"Yfr;", [120092]⟩, ⟨k!"Yopf;", [120144]⟩, ⟨k!"Yscr;", [119988]⟩, ⟨k!"Yuml;", [376]⟩,
  ⟨k!"ZHcy;", [1046]⟩, ⟨k!"Zacute;", [377]⟩, ⟨k!"Zcaron;", [381]⟩, ⟨k!"Zcy;", [1047]⟩,
  ⟨k!"Zdot;", [379]⟩, ⟨k!"ZeroWidthSpace;", [8203]⟩, ⟨k!"Zeta;", [918]⟩, ⟨k!"Zfr;", [8488]⟩,
  ⟨k!"Zopf;", [8484]⟩, ⟨k!"Zscr;", [119989]⟩, ⟨k!"aacute", [225]⟩, ⟨k!"aacute;", [225]⟩,
  ⟨k!"abreve;", [259]⟩, ⟨k!"ac;", [8766]⟩, ⟨k!"acE;", [8766, 819]⟩, ⟨k!"acd;", [8767]⟩,
  ⟨k!"acirc", [226]⟩, ⟨k!"acirc;", [226]⟩, ⟨k!"acute", [180]⟩, ⟨k!"acute;", [180]⟩,
  ⟨k!"acy;", [1072]⟩, ⟨k!"aelig", [230]⟩, ⟨k!"aelig;", [230]⟩, ⟨k!"af;", [8289]⟩,
  ⟨k!"afr;", [120094]⟩, ⟨k!"agrave", [224]⟩, ⟨k!"agrave;", [224]⟩, ⟨k!"alefsym;", [8501]⟩,
  ⟨k!"aleph;", [8501]⟩, ⟨k!"alpha;", [945]⟩, ⟨k!"amacr;", [257]⟩, ⟨k!"amalg;", [10815]⟩,
  ⟨k!"amp", [38]⟩, ⟨k!"amp;", [38]⟩, ⟨k!"and;", [8743]⟩, ⟨k!"andand;", [10837]⟩,
  ⟨k!"andd;", [10844]⟩, ⟨k!"andslope;", [10840]⟩, ⟨k!"andv;", [10842]⟩, ⟨k!"ang;", [8736]⟩,
  ⟨k!"ange;", [10660]⟩, ⟨k!"angle;", [8736]⟩, ⟨k!"angmsd;", [8737]⟩, ⟨k!"angmsdaa;", [10664]⟩,
  ⟨k!"angmsdab;", [10665]⟩, ⟨k!"angmsdac;", [10666]⟩, ⟨k!"angmsdad;", [10667]⟩,
  ⟨k!"angmsdae;", [10668]⟩, ⟨k!"angmsdaf;", [10669]⟩, ⟨k!"angmsdag;", [10670]⟩,
  ⟨k!"angmsdah;", [10671]⟩, ⟨k!"angrt;", [8735]⟩, ⟨k!"angrtvb;", [8894]⟩,
  ⟨k!"angrtvbd;", [10653]⟩, ⟨k!"angsph;", [8738]⟩, ⟨k!"angst;", [197]⟩, ⟨k!"angzarr;", [9084]⟩,
  ⟨k!"aogon;", [261]⟩, ⟨k!"aopf;", [120146]⟩, ⟨k!"ap;", [8776]⟩, ⟨k!"apE;", [10864]⟩,
  ⟨k!"apacir;", [10863]⟩, ⟨k!"ape;", [8778]⟩, ⟨k!"apid;", [8779]⟩, ⟨k!"apos;", [39]⟩,
  ⟨k!"approx;", [8776]⟩, ⟨k!"approxeq;", [8778]⟩, ⟨k!"aring", [229]⟩, ⟨k!"aring;", [229]⟩,
  ⟨k!"ascr;", [119990]⟩, ⟨k!"ast;", [42]⟩, ⟨k!"asymp;", [8776]⟩, ⟨k!"asympeq;", [8781]⟩,
  ⟨k!"atilde", [227]⟩, ⟨k!"atilde;", [227]⟩, ⟨k!"auml", [228]⟩]

/-- `html/defs/entities.inc:701-800`. -/
def rows7 : List Row := [
  ⟨k!"auml;", [228]⟩, ⟨k!"awconint;", [8755]⟩, ⟨k!"awint;", [10769]⟩, ⟨k!"bNot;", [10989]⟩,
  ⟨k!"backcong;", [8780]⟩, ⟨k!"backepsilon;", [1014]⟩, ⟨k!"backprime;", [8245]⟩,
  ⟨k!"backsim;", [8765]⟩, ⟨k!"backsimeq;", [8909]⟩, ⟨k!"barvee;", [8893]⟩, ⟨k!"barwed;", [8965]⟩,
  ⟨k!"barwedge;", [8965]⟩, ⟨k!"bbrk;", [9141]⟩, ⟨k!"bbrktbrk;", [9142]⟩, ⟨k!"bcong;", [8780]⟩,
  ⟨k!"bcy;", [1073]⟩, ⟨k!"bdquo;", [8222]⟩, ⟨k!"becaus;", [8757]⟩, ⟨k!"because;", [8757]⟩,
  ⟨k!"bemptyv;", [10672]⟩, ⟨k!"bepsi;", [1014]⟩, ⟨k!"bernou;", [8492]⟩, ⟨k!"beta;", [946]⟩,
  ⟨k!"beth;", [8502]⟩, ⟨k!"between;", [8812]⟩, ⟨k!"bfr;", [120095]⟩, ⟨k!"bigcap;", [8898]⟩,
  ⟨k!"bigcirc;", [9711]⟩, ⟨k!"bigcup;", [8899]⟩, ⟨k!"bigodot;", [10752]⟩,
  ⟨k!"bigoplus;", [10753]⟩, ⟨k!"bigotimes;", [10754]⟩, ⟨k!"bigsqcup;", [10758]⟩,
  ⟨k!"bigstar;", [9733]⟩, ⟨k!"bigtriangledown;", [9661]⟩, ⟨k!"bigtriangleup;", [9651]⟩,
  ⟨k!"biguplus;", [10756]⟩, ⟨k!"bigvee;", [8897]⟩, ⟨k!"bigwedge;", [8896]⟩,
  ⟨k!"bkarow;", [10509]⟩, ⟨k!"blacklozenge;", [10731]⟩, ⟨k!"blacksquare;", [9642]⟩,
  ⟨k!"blacktriangle;", [9652]⟩, ⟨k!"blacktriangledown;", [9662]⟩,
  ⟨k!"blacktriangleleft;", [9666]⟩, ⟨k!"blacktriangleright;", [9656]⟩, ⟨k!"blank;", [9251]⟩,
  ⟨k!"blk12;", [9618]⟩, ⟨k!"blk14;", [9617]⟩, ⟨k!"blk34;", [9619]⟩, ⟨k!"block;", [9608]⟩,
  ⟨k!"bne;", [61, 8421]⟩, ⟨k!"bnequiv;", [8801, 8421]⟩, ⟨k!"bnot;", [8976]⟩,
  ⟨k!"bopf;", [120147]⟩, ⟨k!"bot;", [8869]⟩, ⟨k!"bottom;", [8869]⟩, ⟨k!"bowtie;", [8904]⟩,
  ⟨k!"boxDL;", [9559]⟩, ⟨k!"boxDR;", [9556]⟩, ⟨k!"boxDl;", [9558]⟩, ⟨k!"boxDr;", [9555]⟩,
  ⟨k!"boxH;", [9552]⟩, ⟨k!"boxHD;", [9574]⟩, ⟨k!"boxHU;", [9577]⟩, ⟨k!"boxHd;", [9572]⟩,
  ⟨k!"boxHu;", [9575]⟩, ⟨k!"boxUL;", [9565]⟩, ⟨k!"boxUR;", [9562]⟩, ⟨k!"boxUl;", [9564]⟩,
  ⟨k!"boxUr;", [9561]⟩, ⟨k!"boxV;", [9553]⟩, ⟨k!"boxVH;", [9580]⟩, ⟨k!"boxVL;", [9571]⟩,
  ⟨k!"boxVR;", [9568]⟩, ⟨k!"boxVh;", [9579]⟩, ⟨k!"boxVl;", [9570]⟩, ⟨k!"boxVr;", [9567]⟩,
  ⟨k!"boxbox;", [10697]⟩, ⟨k!"boxdL;", [9557]⟩, ⟨k!"boxdR;", [9554]⟩, ⟨k!"boxdl;", [9488]⟩,
  ⟨k!"boxdr;", [9484]⟩, ⟨k!"boxh;", [9472]⟩, ⟨k!"boxhD;", [9573]⟩, ⟨k!"boxhU;", [9576]⟩,
  ⟨k!"boxhd;", [9516]⟩, ⟨k!"boxhu;", [9524]⟩, ⟨k!"boxminus;", [8863]⟩, ⟨k!"boxplus;", [8862]⟩,
  ⟨k!"boxtimes;", [8864]⟩, ⟨k!"boxuL;", [9563]⟩, ⟨k!"boxuR;", [9560]⟩, ⟨k!"boxul;", [9496]⟩,
  ⟨k!"boxur;", [9492]⟩, ⟨k!"boxv;", [9474]⟩, ⟨k!"boxvH;", [9578]⟩, ⟨k!"boxvL;", [9569]⟩,
  ⟨k!"boxvR;", [9566]⟩, ⟨k!"boxvh;", [9532]⟩]

/-- `html/defs/entities.inc:801-900`. -/
def rows8 : List Row := [
  ⟨k!"boxvl;", [9508]⟩, ⟨k!"boxvr;", [9500]⟩, ⟨k!"bprime;", [8245]⟩, ⟨k!"breve;", [728]⟩,
  ⟨k!"brvbar", [166]⟩, ⟨k!"brvbar;", [166]⟩, ⟨k!"bscr;", [119991]⟩, ⟨k!"bsemi;", [8271]⟩,
  ⟨k!"bsim;", [8765]⟩, ⟨k!"bsime;", [8909]⟩, ⟨k!"bsol;", [92]⟩, ⟨k!"bsolb;", [10693]⟩,
  ⟨k!"bsolhsub;", [10184]⟩, ⟨k!"bull;", [8226]⟩, ⟨k!"bullet;", [8226]⟩, ⟨k!"bump;", [8782]⟩,
  ⟨k!"bumpE;", [10926]⟩, ⟨k!"bumpe;", [8783]⟩, ⟨k!"bumpeq;", [8783]⟩, ⟨k!"cacute;", [263]⟩,
  ⟨k!"cap;", [8745]⟩, ⟨k!"capand;", [10820]⟩, ⟨k!"capbrcup;", [10825]⟩, ⟨k!"capcap;", [10827]⟩,
  ⟨k!"capcup;", [10823]⟩, ⟨k!"capdot;", [10816]⟩, ⟨k!"caps;", [8745, 65024]⟩,
  ⟨k!"caret;", [8257]⟩, ⟨k!"caron;", [711]⟩, ⟨k!"ccaps;", [10829]⟩, ⟨k!"ccaron;", [269]⟩,
  ⟨k!"ccedil", [231]⟩, ⟨k!"ccedil;", [231]⟩, ⟨k!"ccirc;", [265]⟩, ⟨k!"ccups;", [10828]⟩,
  ⟨k!"ccupssm;", [10832]⟩, ⟨k!"cdot;", [267]⟩, ⟨k!"cedil", [184]⟩, ⟨k!"cedil;", [184]⟩,
  ⟨k!"cemptyv;", [10674]⟩, ⟨k!"cent", [162]⟩, ⟨k!"cent;", [162]⟩, ⟨k!"centerdot;", [183]⟩,
  ⟨k!"cfr;", [120096]⟩, ⟨k!"chcy;", [1095]⟩, ⟨k!"check;", [10003]⟩, ⟨k!"checkmark;", [10003]⟩,
  ⟨k!"chi;", [967]⟩, ⟨k!"cir;", [9675]⟩, ⟨k!"cirE;", [10691]⟩, ⟨k!"circ;", [710]⟩,
  ⟨k!"circeq;", [8791]⟩, ⟨k!"circlearrowleft;", [8634]⟩, ⟨k!"circlearrowright;", [8635]⟩,
  ⟨k!"circledR;", [174]⟩, ⟨k!"circledS;", [9416]⟩, ⟨k!"circledast;", [8859]⟩,
  ⟨k!"circledcirc;", [8858]⟩, ⟨k!"circleddash;", [8861]⟩, ⟨k!"cire;", [8791]⟩,
  ⟨k!"cirfnint;", [10768]⟩, ⟨k!"cirmid;", [10991]⟩, ⟨k!"cirscir;", [10690]⟩, ⟨k!"clubs;", [9827]⟩,
  ⟨k!"clubsuit;", [9827]⟩, ⟨k!"colon;", [58]⟩, ⟨k!"colone;", [8788]⟩, ⟨k!"coloneq;", [8788]⟩,
  ⟨k!"comma;", [44]⟩, ⟨k!"commat;", [64]⟩, ⟨k!"comp;", [8705]⟩, ⟨k!"compfn;", [8728]⟩,
  ⟨k!"complement;", [8705]⟩, ⟨k!"complexes;", [8450]⟩, ⟨k!"cong;", [8773]⟩,
  ⟨k!"congdot;", [10861]⟩, ⟨k!"conint;", [8750]⟩, ⟨k!"copf;", [120148]⟩, ⟨k!"coprod;", [8720]⟩,
  ⟨k!"copy", [169]⟩, ⟨k!"copy;", [169]⟩, ⟨k!"copysr;", [8471]⟩, ⟨k!"crarr;", [8629]⟩,
  ⟨k!"cross;", [10007]⟩, ⟨k!"cscr;", [119992]⟩, ⟨k!"csub;", [10959]⟩, ⟨k!"csube;", [10961]⟩,
  ⟨k!"csup;", [10960]⟩, ⟨k!"csupe;", [10962]⟩, ⟨k!"ctdot;", [8943]⟩, ⟨k!"cudarrl;", [10552]⟩,
  ⟨k!"cudarrr;", [10549]⟩, ⟨k!"cuepr;", [8926]⟩, ⟨k!"cuesc;", [8927]⟩, ⟨k!"cularr;", [8630]⟩,
  ⟨k!"cularrp;", [10557]⟩, ⟨k!"cup;", [8746]⟩, ⟨k!"cupbrcap;", [10824]⟩, ⟨k!"cupcap;", [10822]⟩,
  ⟨k!"cupcup;", [10826]⟩]

/-- `html/defs/entities.inc:901-1000`. -/
def rows9 : List Row := [
  ⟨k!"cupdot;", [8845]⟩, ⟨k!"cupor;", [10821]⟩, ⟨k!"cups;", [8746, 65024]⟩, ⟨k!"curarr;", [8631]⟩,
  ⟨k!"curarrm;", [10556]⟩, ⟨k!"curlyeqprec;", [8926]⟩, ⟨k!"curlyeqsucc;", [8927]⟩,
  ⟨k!"curlyvee;", [8910]⟩, ⟨k!"curlywedge;", [8911]⟩, ⟨k!"curren", [164]⟩, ⟨k!"curren;", [164]⟩,
  ⟨k!"curvearrowleft;", [8630]⟩, ⟨k!"curvearrowright;", [8631]⟩, ⟨k!"cuvee;", [8910]⟩,
  ⟨k!"cuwed;", [8911]⟩, ⟨k!"cwconint;", [8754]⟩, ⟨k!"cwint;", [8753]⟩, ⟨k!"cylcty;", [9005]⟩,
  ⟨k!"dArr;", [8659]⟩, ⟨k!"dHar;", [10597]⟩, ⟨k!"dagger;", [8224]⟩, ⟨k!"daleth;", [8504]⟩,
  ⟨k!"darr;", [8595]⟩, ⟨k!"dash;", [8208]⟩, ⟨k!"dashv;", [8867]⟩, ⟨k!"dbkarow;", [10511]⟩,
  ⟨k!"dblac;", [733]⟩, ⟨k!"dcaron;", [271]⟩, ⟨k!"dcy;", [1076]⟩, ⟨k!"dd;", [8518]⟩,
  ⟨k!"ddagger;", [8225]⟩, ⟨k!"ddarr;", [8650]⟩, ⟨k!"ddotseq;", [10871]⟩, ⟨k!"deg", [176]⟩,
  ⟨k!"deg;", [176]⟩, ⟨k!"delta;", [948]⟩, ⟨k!"demptyv;", [10673]⟩, ⟨k!"dfisht;", [10623]⟩,
  ⟨k!"dfr;", [120097]⟩, ⟨k!"dharl;", [8643]⟩, ⟨k!"dharr;", [8642]⟩, ⟨k!"diam;", [8900]⟩,
  ⟨k!"diamond;", [8900]⟩, ⟨k!"diamondsuit;", [9830]⟩, ⟨k!"diams;", [9830]⟩, ⟨k!"die;", [168]⟩,
  ⟨k!"digamma;", [989]⟩, ⟨k!"disin;", [8946]⟩, ⟨k!"div;", [247]⟩, ⟨k!"divide", [247]⟩,
  ⟨k!"divide;", [247]⟩, ⟨k!"divideontimes;", [8903]⟩, ⟨k!"divonx;", [8903]⟩, ⟨k!"djcy;", [1106]⟩,
  ⟨k!"dlcorn;", [8990]⟩, ⟨k!"dlcrop;", [8973]⟩, ⟨k!"dollar;", [36]⟩, ⟨k!"dopf;", [120149]⟩,
  ⟨k!"dot;", [729]⟩, ⟨k!"doteq;", [8784]⟩, ⟨k!"doteqdot;", [8785]⟩, ⟨k!"dotminus;", [8760]⟩,
  ⟨k!"dotplus;", [8724]⟩, ⟨k!"dotsquare;", [8865]⟩, ⟨k!"doublebarwedge;", [8966]⟩,
  ⟨k!"downarrow;", [8595]⟩, ⟨k!"downdownarrows;", [8650]⟩, ⟨k!"downharpoonleft;", [8643]⟩,
  ⟨k!"downharpoonright;", [8642]⟩, ⟨k!"drbkarow;", [10512]⟩, ⟨k!"drcorn;", [8991]⟩,
  ⟨k!"drcrop;", [8972]⟩, ⟨k!"dscr;", [119993]⟩, ⟨k!"dscy;", [1109]⟩, ⟨k!"dsol;", [10742]⟩,
  ⟨k!"dstrok;", [273]⟩, ⟨k!"dtdot;", [8945]⟩, ⟨k!"dtri;", [9663]⟩, ⟨k!"dtrif;", [9662]⟩,
  ⟨k!"duarr;", [8693]⟩, ⟨k!"duhar;", [10607]⟩, ⟨k!"dwangle;", [10662]⟩, ⟨k!"dzcy;", [1119]⟩,
  ⟨k!"dzigrarr;", [10239]⟩, ⟨k!"eDDot;", [10871]⟩, ⟨k!"eDot;", [8785]⟩, ⟨k!"eacute", [233]⟩,
  ⟨k!"eacute;", [233]⟩, ⟨k!"easter;", [10862]⟩, ⟨k!"ecaron;", [283]⟩, ⟨k!"ecir;", [8790]⟩,
  ⟨k!"ecirc", [234]⟩, ⟨k!"ecirc;", [234]⟩, ⟨k!"ecolon;", [8789]⟩, ⟨k!"ecy;", [1101]⟩,
  ⟨k!"edot;", [279]⟩, ⟨k!"ee;", [8519]⟩, ⟨k!"efDot;", [8786]⟩, ⟨k!"efr;", [120098]⟩,
  ⟨k!"eg;", [10906]⟩]

/-- `html/defs/entities.inc:1001-1100`. -/
def rows10 : List Row := [
  ⟨k!"egrave", [232]⟩, ⟨k!"egrave;", [232]⟩, ⟨k!"egs;", [10902]⟩, ⟨k!"egsdot;", [10904]⟩,
  ⟨k!"el;", [10905]⟩, ⟨k!"elinters;", [9191]⟩, ⟨k!"ell;", [8467]⟩, ⟨k!"els;", [10901]⟩,
  ⟨k!"elsdot;", [10903]⟩, ⟨k!"emacr;", [275]⟩, ⟨k!"empty;", [8709]⟩, ⟨k!"emptyset;", [8709]⟩,
  ⟨k!"emptyv;", [8709]⟩, ⟨k!"emsp13;", [8196]⟩, ⟨k!"emsp14;", [8197]⟩, ⟨k!"emsp;", [8195]⟩,
  ⟨k!"eng;", [331]⟩, ⟨k!"ensp;", [8194]⟩, ⟨k!"eogon;", [281]⟩, ⟨k!"eopf;", [120150]⟩,
  ⟨k!"epar;", [8917]⟩, ⟨k!"eparsl;", [10723]⟩, ⟨k!"eplus;", [10865]⟩, ⟨k!"epsi;", [949]⟩,
  ⟨k!"epsilon;", [949]⟩, ⟨k!"epsiv;", [1013]⟩, ⟨k!"eqcirc;", [8790]⟩, ⟨k!"eqcolon;", [8789]⟩,
  ⟨k!"eqsim;", [8770]⟩, ⟨k!"eqslantgtr;", [10902]⟩, ⟨k!"eqslantless;", [10901]⟩,
  ⟨k!"equals;", [61]⟩, ⟨k!"equest;", [8799]⟩, ⟨k!"equiv;", [8801]⟩, ⟨k!"equivDD;", [10872]⟩,
  ⟨k!"eqvparsl;", [10725]⟩, ⟨k!"erDot;", [8787]⟩, ⟨k!"erarr;", [10609]⟩, ⟨k!"escr;", [8495]⟩,
  ⟨k!"esdot;", [8784]⟩, ⟨k!"esim;", [8770]⟩, ⟨k!"eta;", [951]⟩, ⟨k!"eth", [240]⟩,
  ⟨k!"eth;", [240]⟩, ⟨k!"euml", [235]⟩, ⟨k!"euml;", [235]⟩, ⟨k!"euro;", [8364]⟩,
  ⟨k!"excl;", [33]⟩, ⟨k!"exist;", [8707]⟩, ⟨k!"expectation;", [8496]⟩,
  ⟨k!"exponentiale;", [8519]⟩, ⟨k!"fallingdotseq;", [8786]⟩, ⟨k!"fcy;", [1092]⟩,
  ⟨k!"female;", [9792]⟩, ⟨k!"ffilig;", [64259]⟩, ⟨k!"fflig;", [64256]⟩, ⟨k!"ffllig;", [64260]⟩,
  ⟨k!"ffr;", [120099]⟩, ⟨k!"filig;", [64257]⟩, ⟨k!"fjlig;", [102, 106]⟩, ⟨k!"flat;", [9837]⟩,
  ⟨k!"fllig;", [64258]⟩, ⟨k!"fltns;", [9649]⟩, ⟨k!"fnof;", [402]⟩, ⟨k!"fopf;", [120151]⟩,
  ⟨k!"forall;", [8704]⟩, ⟨k!"fork;", [8916]⟩, ⟨k!"forkv;", [10969]⟩, ⟨k!"fpartint;", [10765]⟩,
  ⟨k!"frac12", [189]⟩, ⟨k!"frac12;", [189]⟩, ⟨k!"frac13;", [8531]⟩, ⟨k!"frac14", [188]⟩,
  ⟨k!"frac14;", [188]⟩, ⟨k!"frac15;", [8533]⟩, ⟨k!"frac16;", [8537]⟩, ⟨k!"frac18;", [8539]⟩,
  ⟨k!"frac23;", [8532]⟩, ⟨k!"frac25;", [8534]⟩, ⟨k!"frac34", [190]⟩, ⟨k!"frac34;", [190]⟩,
  ⟨k!"frac35;", [8535]⟩, ⟨k!"frac38;", [8540]⟩, ⟨k!"frac45;", [8536]⟩, ⟨k!"frac56;", [8538]⟩,
  ⟨k!"frac58;", [8541]⟩, ⟨k!"frac78;", [8542]⟩, ⟨k!"frasl;", [8260]⟩, ⟨k!"frown;", [8994]⟩,
  ⟨k!"fscr;", [119995]⟩, ⟨k!"gE;", [8807]⟩, ⟨k!"gEl;", [10892]⟩, ⟨k!"gacute;", [501]⟩,
  ⟨k!"gamma;", [947]⟩, ⟨k!"gammad;", [989]⟩, ⟨k!"gap;", [10886]⟩, ⟨k!"gbreve;", [287]⟩,
  ⟨k!"gcirc;", [285]⟩, ⟨k!"gcy;", [1075]⟩, ⟨k!"gdot;", [289]⟩]

/-- `html/defs/entities.inc:1101-1200`. -/
def rows11 : List Row := [
  ⟨k!"ge;", [8805]⟩, ⟨k!"gel;", [8923]⟩, ⟨k!"geq;", [8805]⟩, ⟨k!"geqq;", [8807]⟩,
  ⟨k!"geqslant;", [10878]⟩, ⟨k!"ges;", [10878]⟩, ⟨k!"gescc;", [10921]⟩, ⟨k!"gesdot;", [10880]⟩,
  ⟨k!"gesdoto;", [10882]⟩, ⟨k!"gesdotol;", [10884]⟩, ⟨k!"gesl;", [8923, 65024]⟩,
  ⟨k!"gesles;", [10900]⟩, ⟨k!"gfr;", [120100]⟩, ⟨k!"gg;", [8811]⟩, ⟨k!"ggg;", [8921]⟩,
  ⟨k!"gimel;", [8503]⟩, ⟨k!"gjcy;", [1107]⟩, ⟨k!"gl;", [8823]⟩, ⟨k!"glE;", [10898]⟩,
  ⟨k!"gla;", [10917]⟩, ⟨k!"glj;", [10916]⟩, ⟨k!"gnE;", [8809]⟩, ⟨k!"gnap;", [10890]⟩,
  ⟨k!"gnapprox;", [10890]⟩, ⟨k!"gne;", [10888]⟩, ⟨k!"gneq;", [10888]⟩, ⟨k!"gneqq;", [8809]⟩,
  ⟨k!"gnsim;", [8935]⟩, ⟨k!"gopf;", [120152]⟩, ⟨k!"grave;", [96]⟩, ⟨k!"gscr;", [8458]⟩,
  ⟨k!"gsim;", [8819]⟩, ⟨k!"gsime;", [10894]⟩, ⟨k!"gsiml;", [10896]⟩, ⟨k!"gt", [62]⟩,
  ⟨k!"gt;", [62]⟩, ⟨k!"gtcc;", [10919]⟩, ⟨k!"gtcir;", [10874]⟩, ⟨k!"gtdot;", [8919]⟩,
  ⟨k!"gtlPar;", [10645]⟩, ⟨k!"gtquest;", [10876]⟩, ⟨k!"gtrapprox;", [10886]⟩,
  ⟨k!"gtrarr;", [10616]⟩, ⟨k!"gtrdot;", [8919]⟩, ⟨k!"gtreqless;", [8923]⟩,
  ⟨k!"gtreqqless;", [10892]⟩, ⟨k!"gtrless;", [8823]⟩, ⟨k!"gtrsim;", [8819]⟩,
  ⟨k!"gvertneqq;", [8809, 65024]⟩, ⟨k!"gvnE;", [8809, 65024]⟩, ⟨k!"hArr;", [8660]⟩,
  ⟨k!"hairsp;", [8202]⟩, ⟨k!"half;", [189]⟩, ⟨k!"hamilt;", [8459]⟩, ⟨k!"hardcy;", [1098]⟩,
  ⟨k!"harr;", [8596]⟩, ⟨k!"harrcir;", [10568]⟩, ⟨k!"harrw;", [8621]⟩, ⟨k!"hbar;", [8463]⟩,
  ⟨k!"hcirc;", [293]⟩, ⟨k!"hearts;", [9829]⟩, ⟨k!"heartsuit;", [9829]⟩, ⟨k!"hellip;", [8230]⟩,
  ⟨k!"hercon;", [8889]⟩, ⟨k!"hfr;", [120101]⟩, ⟨k!"hksearow;", [10533]⟩, ⟨k!"hkswarow;", [10534]⟩,
  ⟨k!"hoarr;", [8703]⟩, ⟨k!"homtht;", [8763]⟩, ⟨k!"hookleftarrow;", [8617]⟩,
  ⟨k!"hookrightarrow;", [8618]⟩, ⟨k!"hopf;", [120153]⟩, ⟨k!"horbar;", [8213]⟩,
  ⟨k!"hscr;", [119997]⟩, ⟨k!"hslash;", [8463]⟩, ⟨k!"hstrok;", [295]⟩, ⟨k!"hybull;", [8259]⟩,
  ⟨k!"hyphen;", [8208]⟩, ⟨k!"iacute", [237]⟩, ⟨k!"iacute;", [237]⟩, ⟨k!"ic;", [8291]⟩,
  ⟨k!"icirc", [238]⟩, ⟨k!"icirc;", [238]⟩, ⟨k!"icy;", [1080]⟩, ⟨k!"iecy;", [1077]⟩,
  ⟨k!"iexcl", [161]⟩, ⟨k!"iexcl;", [161]⟩, ⟨k!"iff;", [8660]⟩, ⟨k!"ifr;", [120102]⟩,
  ⟨k!"igrave", [236]⟩, ⟨k!"igrave;", [236]⟩, ⟨k!"ii;", [8520]⟩, ⟨k!"iiiint;", [10764]⟩,
  ⟨k!"iiint;", [8749]⟩, ⟨k!"iinfin;", [10716]⟩, ⟨k!"iiota;", [8489]⟩, ⟨k!"ijlig;", [307]⟩,
  ⟨k!"imacr;", [299]⟩, ⟨k!"image;", [8465]⟩, ⟨k!"imagline;", [8464]⟩]

/-- `html/defs/entities.inc:1201-1300`. -/
def rows12 : List Row := [
  ⟨k!"imagpart;", [8465]⟩, ⟨k!"imath;", [305]⟩, ⟨k!"imof;", [8887]⟩, ⟨k!"imped;", [437]⟩,
  ⟨k!"in;", [8712]⟩, ⟨k!"incare;", [8453]⟩, ⟨k!"infin;", [8734]⟩, ⟨k!"infintie;", [10717]⟩,
  ⟨k!"inodot;", [305]⟩, ⟨k!"int;", [8747]⟩, ⟨k!"intcal;", [8890]⟩, ⟨k!"integers;", [8484]⟩,
  ⟨k!"intercal;", [8890]⟩, ⟨k!"intlarhk;", [10775]⟩, ⟨k!"intprod;", [10812]⟩, ⟨k!"iocy;", [1105]⟩,
  ⟨k!"iogon;", [303]⟩, ⟨k!"iopf;", [120154]⟩, ⟨k!"iota;", [953]⟩, ⟨k!"iprod;", [10812]⟩,
  ⟨k!"iquest", [191]⟩, ⟨k!"iquest;", [191]⟩, ⟨k!"iscr;", [119998]⟩, ⟨k!"isin;", [8712]⟩,
  ⟨k!"isinE;", [8953]⟩, ⟨k!"isindot;", [8949]⟩, ⟨k!"isins;", [8948]⟩, ⟨k!"isinsv;", [8947]⟩,
  ⟨k!"isinv;", [8712]⟩, ⟨k!"it;", [8290]⟩, ⟨k!"itilde;", [297]⟩, ⟨k!"iukcy;", [1110]⟩,
  ⟨k!"iuml", [239]⟩, ⟨k!"iuml;", [239]⟩, ⟨k!"jcirc;", [309]⟩, ⟨k!"jcy;", [1081]⟩,
  ⟨k!"jfr;", [120103]⟩, ⟨k!"jmath;", [567]⟩, ⟨k!"jopf;", [120155]⟩, ⟨k!"jscr;", [119999]⟩,
  ⟨k!"jsercy;", [1112]⟩, ⟨k!"jukcy;", [1108]⟩, ⟨k!"kappa;", [954]⟩, ⟨k!"kappav;", [1008]⟩,
  ⟨k!"kcedil;", [311]⟩, ⟨k!"kcy;", [1082]⟩, ⟨k!"kfr;", [120104]⟩, ⟨k!"kgreen;", [312]⟩,
  ⟨k!"khcy;", [1093]⟩, ⟨k!"kjcy;", [1116]⟩, ⟨k!"kopf;", [120156]⟩, ⟨k!"kscr;", [120000]⟩,
  ⟨k!"lAarr;", [8666]⟩, ⟨k!"lArr;", [8656]⟩, ⟨k!"lAtail;", [10523]⟩, ⟨k!"lBarr;", [10510]⟩,
  ⟨k!"lE;", [8806]⟩, ⟨k!"lEg;", [10891]⟩, ⟨k!"lHar;", [10594]⟩, ⟨k!"lacute;", [314]⟩,
  ⟨k!"laemptyv;", [10676]⟩, ⟨k!"lagran;", [8466]⟩, ⟨k!"lambda;", [955]⟩, ⟨k!"lang;", [10216]⟩,
  ⟨k!"langd;", [10641]⟩, ⟨k!"langle;", [10216]⟩, ⟨k!"lap;", [10885]⟩, ⟨k!"laquo", [171]⟩,
  ⟨k!"laquo;", [171]⟩, ⟨k!"larr;", [8592]⟩, ⟨k!"larrb;", [8676]⟩, ⟨k!"larrbfs;", [10527]⟩,
  ⟨k!"larrfs;", [10525]⟩, ⟨k!"larrhk;", [8617]⟩, ⟨k!"larrlp;", [8619]⟩, ⟨k!"larrpl;", [10553]⟩,
  ⟨k!"larrsim;", [10611]⟩, ⟨k!"larrtl;", [8610]⟩, ⟨k!"lat;", [10923]⟩, ⟨k!"latail;", [10521]⟩,
  ⟨k!"late;", [10925]⟩, ⟨k!"lates;", [10925, 65024]⟩, ⟨k!"lbarr;", [10508]⟩,
  ⟨k!"lbbrk;", [10098]⟩, ⟨k!"lbrace;", [123]⟩, ⟨k!"lbrack;", [91]⟩, ⟨k!"lbrke;", [10635]⟩,
  ⟨k!"lbrksld;", [10639]⟩, ⟨k!"lbrkslu;", [10637]⟩, ⟨k!"lcaron;", [318]⟩, ⟨k!"lcedil;", [316]⟩,
  ⟨k!"lceil;", [8968]⟩, ⟨k!"lcub;", [123]⟩, ⟨k!"lcy;", [1083]⟩, ⟨k!"ldca;", [10550]⟩,
  ⟨k!"ldquo;", [8220]⟩, ⟨k!"ldquor;", [8222]⟩, ⟨k!"ldrdhar;", [10599]⟩, ⟨k!"ldrushar;", [10571]⟩,
  ⟨k!"ldsh;", [8626]⟩]

/-- `html/defs/entities.inc:1301-1400`. -/
def rows13 : List Row := [
  ⟨k!"le;", [8804]⟩, ⟨k!"leftarrow;", [8592]⟩, ⟨k!"leftarrowtail;", [8610]⟩,
  ⟨k!"leftharpoondown;", [8637]⟩, ⟨k!"leftharpoonup;", [8636]⟩, ⟨k!"leftleftarrows;", [8647]⟩,
  ⟨k!"leftrightarrow;", [8596]⟩, ⟨k!"leftrightarrows;", [8646]⟩, ⟨k!"leftrightharpoons;", [8651]⟩,
  ⟨k!"leftrightsquigarrow;", [8621]⟩, ⟨k!"leftthreetimes;", [8907]⟩, ⟨k!"leg;", [8922]⟩,
  ⟨k!"leq;", [8804]⟩, ⟨k!"leqq;", [8806]⟩, ⟨k!"leqslant;", [10877]⟩, ⟨k!"les;", [10877]⟩,
  ⟨k!"lescc;", [10920]⟩, ⟨k!"lesdot;", [10879]⟩, ⟨k!"lesdoto;", [10881]⟩,
  ⟨k!"lesdotor;", [10883]⟩, ⟨k!"lesg;", [8922, 65024]⟩, ⟨k!"lesges;", [10899]⟩,
  ⟨k!"lessapprox;", [10885]⟩, ⟨k!"lessdot;", [8918]⟩, ⟨k!"lesseqgtr;", [8922]⟩,
  ⟨k!"lesseqqgtr;", [10891]⟩, ⟨k!"lessgtr;", [8822]⟩, ⟨k!"lesssim;", [8818]⟩,
  ⟨k!"lfisht;", [10620]⟩, ⟨k!"lfloor;", [8970]⟩, ⟨k!"lfr;", [120105]⟩, ⟨k!"lg;", [8822]⟩,
  ⟨k!"lgE;", [10897]⟩, ⟨k!"lhard;", [8637]⟩, ⟨k!"lharu;", [8636]⟩, ⟨k!"lharul;", [10602]⟩,
  ⟨k!"lhblk;", [9604]⟩, ⟨k!"ljcy;", [1113]⟩, ⟨k!"ll;", [8810]⟩, ⟨k!"llarr;", [8647]⟩,
  ⟨k!"llcorner;", [8990]⟩, ⟨k!"llhard;", [10603]⟩, ⟨k!"lltri;", [9722]⟩, ⟨k!"lmidot;", [320]⟩,
  ⟨k!"lmoust;", [9136]⟩, ⟨k!"lmoustache;", [9136]⟩, ⟨k!"lnE;", [8808]⟩, ⟨k!"lnap;", [10889]⟩,
  ⟨k!"lnapprox;", [10889]⟩, ⟨k!"lne;", [10887]⟩, ⟨k!"lneq;", [10887]⟩, ⟨k!"lneqq;", [8808]⟩,
  ⟨k!"lnsim;", [8934]⟩, ⟨k!"loang;", [10220]⟩, ⟨k!"loarr;", [8701]⟩, ⟨k!"lobrk;", [10214]⟩,
  ⟨k!"longleftarrow;", [10229]⟩, ⟨k!"longleftrightarrow;", [10231]⟩, ⟨k!"longmapsto;", [10236]⟩,
  ⟨k!"longrightarrow;", [10230]⟩, ⟨k!"looparrowleft;", [8619]⟩, ⟨k!"looparrowright;", [8620]⟩,
  ⟨k!"lopar;", [10629]⟩, ⟨k!"lopf;", [120157]⟩, ⟨k!"loplus;", [10797]⟩, ⟨k!"lotimes;", [10804]⟩,
  ⟨k!"lowast;", [8727]⟩, ⟨k!"lowbar;", [95]⟩, ⟨k!"loz;", [9674]⟩, ⟨k!"lozenge;", [9674]⟩,
  ⟨k!"lozf;", [10731]⟩, ⟨k!"lpar;", [40]⟩, ⟨k!"lparlt;", [10643]⟩, ⟨k!"lrarr;", [8646]⟩,
  ⟨k!"lrcorner;", [8991]⟩, ⟨k!"lrhar;", [8651]⟩, ⟨k!"lrhard;", [10605]⟩, ⟨k!"lrm;", [8206]⟩,
  ⟨k!"lrtri;", [8895]⟩, ⟨k!"lsaquo;", [8249]⟩, ⟨k!"lscr;", [120001]⟩, ⟨k!"lsh;", [8624]⟩,
  ⟨k!"lsim;", [8818]⟩, ⟨k!"lsime;", [10893]⟩, ⟨k!"lsimg;", [10895]⟩, ⟨k!"lsqb;", [91]⟩,
  ⟨k!"lsquo;", [8216]⟩, ⟨k!"lsquor;", [8218]⟩, ⟨k!"lstrok;", [322]⟩, ⟨k!"lt", [60]⟩,
  ⟨k!"lt;", [60]⟩, ⟨k!"ltcc;", [10918]⟩, ⟨k!"ltcir;", [10873]⟩, ⟨k!"ltdot;", [8918]⟩,
  ⟨k!"lthree;", [8907]⟩, ⟨k!"ltimes;", [8905]⟩, ⟨k!"ltlarr;", [10614]⟩, ⟨k!"ltquest;", [10875]⟩,
  ⟨k!"ltrPar;", [10646]⟩, ⟨k!"ltri;", [9667]⟩]

/-- `html/defs/entities.inc:1401-1500`. -/
def rows14 : List Row := [
  ⟨k!"ltrie;", [8884]⟩, ⟨k!"ltrif;", [9666]⟩, ⟨k!"lurdshar;", [10570]⟩, ⟨k!"luruhar;", [10598]⟩,
  ⟨k!"lvertneqq;", [8808, 65024]⟩, ⟨k!"lvnE;", [8808, 65024]⟩, ⟨k!"mDDot;", [8762]⟩,
  ⟨k!"macr", [175]⟩, ⟨k!"macr;", [175]⟩, ⟨k!"male;", [9794]⟩, ⟨k!"malt;", [10016]⟩,
  ⟨k!"maltese;", [10016]⟩, ⟨k!"map;", [8614]⟩, ⟨k!"mapsto;", [8614]⟩, ⟨k!"mapstodown;", [8615]⟩,
  ⟨k!"mapstoleft;", [8612]⟩, ⟨k!"mapstoup;", [8613]⟩, ⟨k!"marker;", [9646]⟩,
  ⟨k!"mcomma;", [10793]⟩, ⟨k!"mcy;", [1084]⟩, ⟨k!"mdash;", [8212]⟩, ⟨k!"measuredangle;", [8737]⟩,
  ⟨k!"mfr;", [120106]⟩, ⟨k!"mho;", [8487]⟩, ⟨k!"micro", [181]⟩, ⟨k!"micro;", [181]⟩,
  ⟨k!"mid;", [8739]⟩, ⟨k!"midast;", [42]⟩, ⟨k!"midcir;", [10992]⟩, ⟨k!"middot", [183]⟩,
  ⟨k!"middot;", [183]⟩, ⟨k!"minus;", [8722]⟩, ⟨k!"minusb;", [8863]⟩, ⟨k!"minusd;", [8760]⟩,
  ⟨k!"minusdu;", [10794]⟩, ⟨k!"mlcp;", [10971]⟩, ⟨k!"mldr;", [8230]⟩, ⟨k!"mnplus;", [8723]⟩,
  ⟨k!"models;", [8871]⟩, ⟨k!"mopf;", [120158]⟩, ⟨k!"mp;", [8723]⟩, ⟨k!"mscr;", [120002]⟩,
  ⟨k!"mstpos;", [8766]⟩, ⟨k!"mu;", [956]⟩, ⟨k!"multimap;", [8888]⟩, ⟨k!"mumap;", [8888]⟩,
  ⟨k!"nGg;", [8921, 824]⟩, ⟨k!"nGt;", [8811, 8402]⟩, ⟨k!"nGtv;", [8811, 824]⟩,
  ⟨k!"nLeftarrow;", [8653]⟩, ⟨k!"nLeftrightarrow;", [8654]⟩, ⟨k!"nLl;", [8920, 824]⟩,
  ⟨k!"nLt;", [8810, 8402]⟩, ⟨k!"nLtv;", [8810, 824]⟩, ⟨k!"nRightarrow;", [8655]⟩,
  ⟨k!"nVDash;", [8879]⟩, ⟨k!"nVdash;", [8878]⟩, ⟨k!"nabla;", [8711]⟩, ⟨k!"nacute;", [324]⟩,
  ⟨k!"nang;", [8736, 8402]⟩, ⟨k!"nap;", [8777]⟩, ⟨k!"napE;", [10864, 824]⟩,
  ⟨k!"napid;", [8779, 824]⟩, ⟨k!"napos;", [329]⟩, ⟨k!"napprox;", [8777]⟩, ⟨k!"natur;", [9838]⟩,
  ⟨k!"natural;", [9838]⟩, ⟨k!"naturals;", [8469]⟩, ⟨k!"nbsp", [160]⟩, ⟨k!"nbsp;", [160]⟩,
  ⟨k!"nbump;", [8782, 824]⟩, ⟨k!"nbumpe;", [8783, 824]⟩, ⟨k!"ncap;", [10819]⟩,
  ⟨k!"ncaron;", [328]⟩, ⟨k!"ncedil;", [326]⟩, ⟨k!"ncong;", [8775]⟩, ⟨k!"ncongdot;", [10861, 824]⟩,
  ⟨k!"ncup;", [10818]⟩, ⟨k!"ncy;", [1085]⟩, ⟨k!"ndash;", [8211]⟩, ⟨k!"ne;", [8800]⟩,
  ⟨k!"neArr;", [8663]⟩, ⟨k!"nearhk;", [10532]⟩, ⟨k!"nearr;", [8599]⟩, ⟨k!"nearrow;", [8599]⟩,
  ⟨k!"nedot;", [8784, 824]⟩, ⟨k!"nequiv;", [8802]⟩, ⟨k!"nesear;", [10536]⟩,
  ⟨k!"nesim;", [8770, 824]⟩, ⟨k!"nexist;", [8708]⟩, ⟨k!"nexists;", [8708]⟩, ⟨k!"nfr;", [120107]⟩,
  ⟨k!"ngE;", [8807, 824]⟩, ⟨k!"nge;", [8817]⟩, ⟨k!"ngeq;", [8817]⟩, ⟨k!"ngeqq;", [8807, 824]⟩,
  ⟨k!"ngeqslant;", [10878, 824]⟩, ⟨k!"nges;", [10878, 824]⟩, ⟨k!"ngsim;", [8821]⟩,
  ⟨k!"ngt;", [8815]⟩]

/-- `html/defs/entities.inc:1501-1600`. -/
def rows15 : List Row := [
  ⟨k!"ngtr;", [8815]⟩, ⟨k!"nhArr;", [8654]⟩, ⟨k!"nharr;", [8622]⟩, ⟨k!"nhpar;", [10994]⟩,
  ⟨k!"ni;", [8715]⟩, ⟨k!"nis;", [8956]⟩, ⟨k!"nisd;", [8954]⟩, ⟨k!"niv;", [8715]⟩,
  ⟨k!"njcy;", [1114]⟩, ⟨k!"nlArr;", [8653]⟩, ⟨k!"nlE;", [8806, 824]⟩, ⟨k!"nlarr;", [8602]⟩,
  ⟨k!"nldr;", [8229]⟩, ⟨k!"nle;", [8816]⟩, ⟨k!"nleftarrow;", [8602]⟩,
  ⟨k!"nleftrightarrow;", [8622]⟩, ⟨k!"nleq;", [8816]⟩, ⟨k!"nleqq;", [8806, 824]⟩,
  ⟨k!"nleqslant;", [10877, 824]⟩, ⟨k!"nles;", [10877, 824]⟩, ⟨k!"nless;", [8814]⟩,
  ⟨k!"nlsim;", [8820]⟩, ⟨k!"nlt;", [8814]⟩, ⟨k!"nltri;", [8938]⟩, ⟨k!"nltrie;", [8940]⟩,
  ⟨k!"nmid;", [8740]⟩, ⟨k!"nopf;", [120159]⟩, ⟨k!"not", [172]⟩, ⟨k!"not;", [172]⟩,
  ⟨k!"notin;", [8713]⟩, ⟨k!"notinE;", [8953, 824]⟩, ⟨k!"notindot;", [8949, 824]⟩,
  ⟨k!"notinva;", [8713]⟩, ⟨k!"notinvb;", [8951]⟩, ⟨k!"notinvc;", [8950]⟩, ⟨k!"notni;", [8716]⟩,
  ⟨k!"notniva;", [8716]⟩, ⟨k!"notnivb;", [8958]⟩, ⟨k!"notnivc;", [8957]⟩, ⟨k!"npar;", [8742]⟩,
  ⟨k!"nparallel;", [8742]⟩, ⟨k!"nparsl;", [11005, 8421]⟩, ⟨k!"npart;", [8706, 824]⟩,
  ⟨k!"npolint;", [10772]⟩, ⟨k!"npr;", [8832]⟩, ⟨k!"nprcue;", [8928]⟩, ⟨k!"npre;", [10927, 824]⟩,
  ⟨k!"nprec;", [8832]⟩, ⟨k!"npreceq;", [10927, 824]⟩, ⟨k!"nrArr;", [8655]⟩, ⟨k!"nrarr;", [8603]⟩,
  ⟨k!"nrarrc;", [10547, 824]⟩, ⟨k!"nrarrw;", [8605, 824]⟩, ⟨k!"nrightarrow;", [8603]⟩,
  ⟨k!"nrtri;", [8939]⟩, ⟨k!"nrtrie;", [8941]⟩, ⟨k!"nsc;", [8833]⟩, ⟨k!"nsccue;", [8929]⟩,
  ⟨k!"nsce;", [10928, 824]⟩, ⟨k!"nscr;", [120003]⟩, ⟨k!"nshortmid;", [8740]⟩,
  ⟨k!"nshortparallel;", [8742]⟩, ⟨k!"nsim;", [8769]⟩, ⟨k!"nsime;", [8772]⟩, ⟨k!"nsimeq;", [8772]⟩,
  ⟨k!"nsmid;", [8740]⟩, ⟨k!"nspar;", [8742]⟩, ⟨k!"nsqsube;", [8930]⟩, ⟨k!"nsqsupe;", [8931]⟩,
  ⟨k!"nsub;", [8836]⟩, ⟨k!"nsubE;", [10949, 824]⟩, ⟨k!"nsube;", [8840]⟩,
  ⟨k!"nsubset;", [8834, 8402]⟩, ⟨k!"nsubseteq;", [8840]⟩, ⟨k!"nsubseteqq;", [10949, 824]⟩,
  ⟨k!"nsucc;", [8833]⟩, ⟨k!"nsucceq;", [10928, 824]⟩, ⟨k!"nsup;", [8837]⟩,
  ⟨k!"nsupE;", [10950, 824]⟩, ⟨k!"nsupe;", [8841]⟩, ⟨k!"nsupset;", [8835, 8402]⟩,
  ⟨k!"nsupseteq;", [8841]⟩, ⟨k!"nsupseteqq;", [10950, 824]⟩, ⟨k!"ntgl;", [8825]⟩,
  ⟨k!"ntilde", [241]⟩, ⟨k!"ntilde;", [241]⟩, ⟨k!"ntlg;", [8824]⟩, ⟨k!"ntriangleleft;", [8938]⟩,
  ⟨k!"ntrianglelefteq;", [8940]⟩, ⟨k!"ntriangleright;", [8939]⟩, ⟨k!"ntrianglerighteq;", [8941]⟩,
  ⟨k!"nu;", [957]⟩, ⟨k!"num;", [35]⟩, ⟨k!"numero;", [8470]⟩, ⟨k!"numsp;", [8199]⟩,
  ⟨k!"nvDash;", [8877]⟩, ⟨k!"nvHarr;", [10500]⟩, ⟨k!"nvap;", [8781, 8402]⟩, ⟨k!"nvdash;", [8876]⟩,
  ⟨k!"nvge;", [8805, 8402]⟩]

/-- `html/defs/entities.inc:1601-1700`. -/
def rows16 : List Row := [
  ⟨k!"nvgt;", [62, 8402]⟩, ⟨k!"nvinfin;", [10718]⟩, ⟨k!"nvlArr;", [10498]⟩,
  ⟨k!"nvle;", [8804, 8402]⟩, ⟨k!"nvlt;", [60, 8402]⟩, ⟨k!"nvltrie;", [8884, 8402]⟩,
  ⟨k!"nvrArr;", [10499]⟩, ⟨k!"nvrtrie;", [8885, 8402]⟩, ⟨k!"nvsim;", [8764, 8402]⟩,
  ⟨k!"nwArr;", [8662]⟩, ⟨k!"nwarhk;", [10531]⟩, ⟨k!"nwarr;", [8598]⟩, ⟨k!"nwarrow;", [8598]⟩,
  ⟨k!"nwnear;", [10535]⟩, ⟨k!"oS;", [9416]⟩, ⟨k!"oacute", [243]⟩, ⟨k!"oacute;", [243]⟩,
  ⟨k!"oast;", [8859]⟩, ⟨k!"ocir;", [8858]⟩, ⟨k!"ocirc", [244]⟩, ⟨k!"ocirc;", [244]⟩,
  ⟨k!"ocy;", [1086]⟩, ⟨k!"odash;", [8861]⟩, ⟨k!"odblac;", [337]⟩, ⟨k!"odiv;", [10808]⟩,
  ⟨k!"odot;", [8857]⟩, ⟨k!"odsold;", [10684]⟩, ⟨k!"oelig;", [339]⟩, ⟨k!"ofcir;", [10687]⟩,
  ⟨k!"ofr;", [120108]⟩, ⟨k!"ogon;", [731]⟩, ⟨k!"ograve", [242]⟩, ⟨k!"ograve;", [242]⟩,
  ⟨k!"ogt;", [10689]⟩, ⟨k!"ohbar;", [10677]⟩, ⟨k!"ohm;", [937]⟩, ⟨k!"oint;", [8750]⟩,
  ⟨k!"olarr;", [8634]⟩, ⟨k!"olcir;", [10686]⟩, ⟨k!"olcross;", [10683]⟩, ⟨k!"oline;", [8254]⟩,
  ⟨k!"olt;", [10688]⟩, ⟨k!"omacr;", [333]⟩, ⟨k!"omega;", [969]⟩, ⟨k!"omicron;", [959]⟩,
  ⟨k!"omid;", [10678]⟩, ⟨k!"ominus;", [8854]⟩, ⟨k!"oopf;", [120160]⟩, ⟨k!"opar;", [10679]⟩,
  ⟨k!"operp;", [10681]⟩, ⟨k!"oplus;", [8853]⟩, ⟨k!"or;", [8744]⟩, ⟨k!"orarr;", [8635]⟩,
  ⟨k!"ord;", [10845]⟩, ⟨k!"order;", [8500]⟩, ⟨k!"orderof;", [8500]⟩, ⟨k!"ordf", [170]⟩,
  ⟨k!"ordf;", [170]⟩, ⟨k!"ordm", [186]⟩, ⟨k!"ordm;", [186]⟩, ⟨k!"origof;", [8886]⟩,
  ⟨k!"oror;", [10838]⟩, ⟨k!"orslope;", [10839]⟩, ⟨k!"orv;", [10843]⟩, ⟨k!"oscr;", [8500]⟩,
  ⟨k!"oslash", [248]⟩, ⟨k!"oslash;", [248]⟩, ⟨k!"osol;", [8856]⟩, ⟨k!"otilde", [245]⟩,
  ⟨k!"otilde;", [245]⟩, ⟨k!"otimes;", [8855]⟩, ⟨k!"otimesas;", [10806]⟩, ⟨k!"ouml", [246]⟩,
  ⟨k!"ouml;", [246]⟩, ⟨k!"ovbar;", [9021]⟩, ⟨k!"par;", [8741]⟩, ⟨k!"para", [182]⟩,
  ⟨k!"para;", [182]⟩, ⟨k!"parallel;", [8741]⟩, ⟨k!"parsim;", [10995]⟩, ⟨k!"parsl;", [11005]⟩,
  ⟨k!"part;", [8706]⟩, ⟨k!"pcy;", [1087]⟩, ⟨k!"percnt;", [37]⟩, ⟨k!"period;", [46]⟩,
  ⟨k!"permil;", [8240]⟩, ⟨k!"perp;", [8869]⟩, ⟨k!"pertenk;", [8241]⟩, ⟨k!"pfr;", [120109]⟩,
  ⟨k!"phi;", [966]⟩, ⟨k!"phiv;", [981]⟩, ⟨k!"phmmat;", [8499]⟩, ⟨k!"phone;", [9742]⟩,
  ⟨k!"pi;", [960]⟩, ⟨k!"pitchfork;", [8916]⟩, ⟨k!"piv;", [982]⟩, ⟨k!"planck;", [8463]⟩,
  ⟨k!"planckh;", [8462]⟩, ⟨k!"plankv;", [8463]⟩, ⟨k!"plus;", [43]⟩]

/-- `html/defs/entities.inc:1701-1800`. -/
def rows17 : List Row := [
  ⟨k!"plusacir;", [10787]⟩, ⟨k!"plusb;", [8862]⟩, ⟨k!"pluscir;", [10786]⟩, ⟨k!"plusdo;", [8724]⟩,
  ⟨k!"plusdu;", [10789]⟩, ⟨k!"pluse;", [10866]⟩, ⟨k!"plusmn", [177]⟩, ⟨k!"plusmn;", [177]⟩,
  ⟨k!"plussim;", [10790]⟩, ⟨k!"plustwo;", [10791]⟩, ⟨k!"pm;", [177]⟩, ⟨k!"pointint;", [10773]⟩,
  ⟨k!"popf;", [120161]⟩, ⟨k!"pound", [163]⟩, ⟨k!"pound;", [163]⟩, ⟨k!"pr;", [8826]⟩,
  ⟨k!"prE;", [10931]⟩, ⟨k!"prap;", [10935]⟩, ⟨k!"prcue;", [8828]⟩, ⟨k!"pre;", [10927]⟩,
  ⟨k!"prec;", [8826]⟩, ⟨k!"precapprox;", [10935]⟩, ⟨k!"preccurlyeq;", [8828]⟩,
  ⟨k!"preceq;", [10927]⟩, ⟨k!"precnapprox;", [10937]⟩, ⟨k!"precneqq;", [10933]⟩,
  ⟨k!"precnsim;", [8936]⟩, ⟨k!"precsim;", [8830]⟩, ⟨k!"prime;", [8242]⟩, ⟨k!"primes;", [8473]⟩,
  ⟨k!"prnE;", [10933]⟩, ⟨k!"prnap;", [10937]⟩, ⟨k!"prnsim;", [8936]⟩, ⟨k!"prod;", [8719]⟩,
  ⟨k!"profalar;", [9006]⟩, ⟨k!"profline;", [8978]⟩, ⟨k!"profsurf;", [8979]⟩, ⟨k!"prop;", [8733]⟩,
  ⟨k!"propto;", [8733]⟩, ⟨k!"prsim;", [8830]⟩, ⟨k!"prurel;", [8880]⟩, ⟨k!"pscr;", [120005]⟩,
  ⟨k!"psi;", [968]⟩, ⟨k!"puncsp;", [8200]⟩, ⟨k!"qfr;", [120110]⟩, ⟨k!"qint;", [10764]⟩,
  ⟨k!"qopf;", [120162]⟩, ⟨k!"qprime;", [8279]⟩, ⟨k!"qscr;", [120006]⟩, ⟨k!"quaternions;", [8461]⟩,
  ⟨k!"quatint;", [10774]⟩, ⟨k!"quest;", [63]⟩, ⟨k!"questeq;", [8799]⟩, ⟨k!"quot", [34]⟩,
  ⟨k!"quot;", [34]⟩, ⟨k!"rAarr;", [8667]⟩, ⟨k!"rArr;", [8658]⟩, ⟨k!"rAtail;", [10524]⟩,
  ⟨k!"rBarr;", [10511]⟩, ⟨k!"rHar;", [10596]⟩, ⟨k!"race;", [8765, 817]⟩, ⟨k!"racute;", [341]⟩,
  ⟨k!"radic;", [8730]⟩, ⟨k!"raemptyv;", [10675]⟩, ⟨k!"rang;", [10217]⟩, ⟨k!"rangd;", [10642]⟩,
  ⟨k!"range;", [10661]⟩, ⟨k!"rangle;", [10217]⟩, ⟨k!"raquo", [187]⟩, ⟨k!"raquo;", [187]⟩,
  ⟨k!"rarr;", [8594]⟩, ⟨k!"rarrap;", [10613]⟩, ⟨k!"rarrb;", [8677]⟩, ⟨k!"rarrbfs;", [10528]⟩,
  ⟨k!"rarrc;", [10547]⟩, ⟨k!"rarrfs;", [10526]⟩, ⟨k!"rarrhk;", [8618]⟩, ⟨k!"rarrlp;", [8620]⟩,
  ⟨k!"rarrpl;", [10565]⟩, ⟨k!"rarrsim;", [10612]⟩, ⟨k!"rarrtl;", [8611]⟩, ⟨k!"rarrw;", [8605]⟩,
  ⟨k!"ratail;", [10522]⟩, ⟨k!"ratio;", [8758]⟩, ⟨k!"rationals;", [8474]⟩, ⟨k!"rbarr;", [10509]⟩,
  ⟨k!"rbbrk;", [10099]⟩, ⟨k!"rbrace;", [125]⟩, ⟨k!"rbrack;", [93]⟩, ⟨k!"rbrke;", [10636]⟩,
  ⟨k!"rbrksld;", [10638]⟩, ⟨k!"rbrkslu;", [10640]⟩, ⟨k!"rcaron;", [345]⟩, ⟨k!"rcedil;", [343]⟩,
  ⟨k!"rceil;", [8969]⟩, ⟨k!"rcub;", [125]⟩, ⟨k!"rcy;", [1088]⟩, ⟨k!"rdca;", [10551]⟩,
  ⟨k!"rdldhar;", [10601]⟩, ⟨k!"rdquo;", [8221]⟩]

/-- `html/defs/entities.inc:1801-1900`. -/
def rows18 : List Row := [
  ⟨k!"rdquor;", [8221]⟩, ⟨k!"rdsh;", [8627]⟩, ⟨k!"real;", [8476]⟩, ⟨k!"realine;", [8475]⟩,
  ⟨k!"realpart;", [8476]⟩, ⟨k!"reals;", [8477]⟩, ⟨k!"rect;", [9645]⟩, ⟨k!"reg", [174]⟩,
  ⟨k!"reg;", [174]⟩, ⟨k!"rfisht;", [10621]⟩, ⟨k!"rfloor;", [8971]⟩, ⟨k!"rfr;", [120111]⟩,
  ⟨k!"rhard;", [8641]⟩, ⟨k!"rharu;", [8640]⟩, ⟨k!"rharul;", [10604]⟩, ⟨k!"rho;", [961]⟩,
  ⟨k!"rhov;", [1009]⟩, ⟨k!"rightarrow;", [8594]⟩, ⟨k!"rightarrowtail;", [8611]⟩,
  ⟨k!"rightharpoondown;", [8641]⟩, ⟨k!"rightharpoonup;", [8640]⟩, ⟨k!"rightleftarrows;", [8644]⟩,
  ⟨k!"rightleftharpoons;", [8652]⟩, ⟨k!"rightrightarrows;", [8649]⟩,
  ⟨k!"rightsquigarrow;", [8605]⟩, ⟨k!"rightthreetimes;", [8908]⟩, ⟨k!"ring;", [730]⟩,
  ⟨k!"risingdotseq;", [8787]⟩, ⟨k!"rlarr;", [8644]⟩, ⟨k!"rlhar;", [8652]⟩, ⟨k!"rlm;", [8207]⟩,
  ⟨k!"rmoust;", [9137]⟩, ⟨k!"rmoustache;", [9137]⟩, ⟨k!"rnmid;", [10990]⟩, ⟨k!"roang;", [10221]⟩,
  ⟨k!"roarr;", [8702]⟩, ⟨k!"robrk;", [10215]⟩, ⟨k!"ropar;", [10630]⟩, ⟨k!"ropf;", [120163]⟩,
  ⟨k!"roplus;", [10798]⟩, ⟨k!"rotimes;", [10805]⟩, ⟨k!"rpar;", [41]⟩, ⟨k!"rpargt;", [10644]⟩,
  ⟨k!"rppolint;", [10770]⟩, ⟨k!"rrarr;", [8649]⟩, ⟨k!"rsaquo;", [8250]⟩, ⟨k!"rscr;", [120007]⟩,
  ⟨k!"rsh;", [8625]⟩, ⟨k!"rsqb;", [93]⟩, ⟨k!"rsquo;", [8217]⟩, ⟨k!"rsquor;", [8217]⟩,
  ⟨k!"rthree;", [8908]⟩, ⟨k!"rtimes;", [8906]⟩, ⟨k!"rtri;", [9657]⟩, ⟨k!"rtrie;", [8885]⟩,
  ⟨k!"rtrif;", [9656]⟩, ⟨k!"rtriltri;", [10702]⟩, ⟨k!"ruluhar;", [10600]⟩, ⟨k!"rx;", [8478]⟩,
  ⟨k!"sacute;", [347]⟩, ⟨k!"sbquo;", [8218]⟩, ⟨k!"sc;", [8827]⟩, ⟨k!"scE;", [10932]⟩,
  ⟨k!"scap;", [10936]⟩, ⟨k!"scaron;", [353]⟩, ⟨k!"sccue;", [8829]⟩, ⟨k!"sce;", [10928]⟩,
  ⟨k!"scedil;", [351]⟩, ⟨k!"scirc;", [349]⟩, ⟨k!"scnE;", [10934]⟩, ⟨k!"scnap;", [10938]⟩,
  ⟨k!"scnsim;", [8937]⟩, ⟨k!"scpolint;", [10771]⟩, ⟨k!"scsim;", [8831]⟩, ⟨k!"scy;", [1089]⟩,
  ⟨k!"sdot;", [8901]⟩, ⟨k!"sdotb;", [8865]⟩, ⟨k!"sdote;", [10854]⟩, ⟨k!"seArr;", [8664]⟩,
  ⟨k!"searhk;", [10533]⟩, ⟨k!"searr;", [8600]⟩, ⟨k!"searrow;", [8600]⟩, ⟨k!"sect", [167]⟩,
  ⟨k!"sect;", [167]⟩, ⟨k!"semi;", [59]⟩, ⟨k!"seswar;", [10537]⟩, ⟨k!"setminus;", [8726]⟩,
  ⟨k!"setmn;", [8726]⟩, ⟨k!"sext;", [10038]⟩, ⟨k!"sfr;", [120112]⟩, ⟨k!"sfrown;", [8994]⟩,
  ⟨k!"sharp;", [9839]⟩, ⟨k!"shchcy;", [1097]⟩, ⟨k!"shcy;", [1096]⟩, ⟨k!"shortmid;", [8739]⟩,
  ⟨k!"shortparallel;", [8741]⟩, ⟨k!"shy", [173]⟩, ⟨k!"shy;", [173]⟩, ⟨k!"sigma;", [963]⟩,
  ⟨k!"sigmaf;", [962]⟩]

/-- `html/defs/entities.inc:1901-2000`. -/
def rows19 : List Row := [
  ⟨k!"sigmav;", [962]⟩, ⟨k!"sim;", [8764]⟩, ⟨k!"simdot;", [10858]⟩, ⟨k!"sime;", [8771]⟩,
  ⟨k!"simeq;", [8771]⟩, ⟨k!"simg;", [10910]⟩, ⟨k!"simgE;", [10912]⟩, ⟨k!"siml;", [10909]⟩,
  ⟨k!"simlE;", [10911]⟩, ⟨k!"simne;", [8774]⟩, ⟨k!"simplus;", [10788]⟩, ⟨k!"simrarr;", [10610]⟩,
  ⟨k!"slarr;", [8592]⟩, ⟨k!"smallsetminus;", [8726]⟩, ⟨k!"smashp;", [10803]⟩,
  ⟨k!"smeparsl;", [10724]⟩, ⟨k!"smid;", [8739]⟩, ⟨k!"smile;", [8995]⟩, ⟨k!"smt;", [10922]⟩,
  ⟨k!"smte;", [10924]⟩, ⟨k!"smtes;", [10924, 65024]⟩, ⟨k!"softcy;", [1100]⟩, ⟨k!"sol;", [47]⟩,
  ⟨k!"solb;", [10692]⟩, ⟨k!"solbar;", [9023]⟩, ⟨k!"sopf;", [120164]⟩, ⟨k!"spades;", [9824]⟩,
  ⟨k!"spadesuit;", [9824]⟩, ⟨k!"spar;", [8741]⟩, ⟨k!"sqcap;", [8851]⟩,
  ⟨k!"sqcaps;", [8851, 65024]⟩, ⟨k!"sqcup;", [8852]⟩, ⟨k!"sqcups;", [8852, 65024]⟩,
  ⟨k!"sqsub;", [8847]⟩, ⟨k!"sqsube;", [8849]⟩, ⟨k!"sqsubset;", [8847]⟩, ⟨k!"sqsubseteq;", [8849]⟩,
  ⟨k!"sqsup;", [8848]⟩, ⟨k!"sqsupe;", [8850]⟩, ⟨k!"sqsupset;", [8848]⟩, ⟨k!"sqsupseteq;", [8850]⟩,
  ⟨k!"squ;", [9633]⟩, ⟨k!"square;", [9633]⟩, ⟨k!"squarf;", [9642]⟩, ⟨k!"squf;", [9642]⟩,
  ⟨k!"srarr;", [8594]⟩, ⟨k!"sscr;", [120008]⟩, ⟨k!"ssetmn;", [8726]⟩, ⟨k!"ssmile;", [8995]⟩,
  ⟨k!"sstarf;", [8902]⟩, ⟨k!"star;", [9734]⟩, ⟨k!"starf;", [9733]⟩,
  ⟨k!"straightepsilon;", [1013]⟩, ⟨k!"straightphi;", [981]⟩, ⟨k!"strns;", [175]⟩,
  ⟨k!"sub;", [8834]⟩, ⟨k!"subE;", [10949]⟩, ⟨k!"subdot;", [10941]⟩, ⟨k!"sube;", [8838]⟩,
  ⟨k!"subedot;", [10947]⟩, ⟨k!"submult;", [10945]⟩, ⟨k!"subnE;", [10955]⟩, ⟨k!"subne;", [8842]⟩,
  ⟨k!"subplus;", [10943]⟩, ⟨k!"subrarr;", [10617]⟩, ⟨k!"subset;", [8834]⟩,
  ⟨k!"subseteq;", [8838]⟩, ⟨k!"subseteqq;", [10949]⟩, ⟨k!"subsetneq;", [8842]⟩,
  ⟨k!"subsetneqq;", [10955]⟩, ⟨k!"subsim;", [10951]⟩, ⟨k!"subsub;", [10965]⟩,
  ⟨k!"subsup;", [10963]⟩, ⟨k!"succ;", [8827]⟩, ⟨k!"succapprox;", [10936]⟩,
  ⟨k!"succcurlyeq;", [8829]⟩, ⟨k!"succeq;", [10928]⟩, ⟨k!"succnapprox;", [10938]⟩,
  ⟨k!"succneqq;", [10934]⟩, ⟨k!"succnsim;", [8937]⟩, ⟨k!"succsim;", [8831]⟩, ⟨k!"sum;", [8721]⟩,
  ⟨k!"sung;", [9834]⟩, ⟨k!"sup1", [185]⟩, ⟨k!"sup1;", [185]⟩, ⟨k!"sup2", [178]⟩,
  ⟨k!"sup2;", [178]⟩, ⟨k!"sup3", [179]⟩, ⟨k!"sup3;", [179]⟩, ⟨k!"sup;", [8835]⟩,
  ⟨k!"supE;", [10950]⟩, ⟨k!"supdot;", [10942]⟩, ⟨k!"supdsub;", [10968]⟩, ⟨k!"supe;", [8839]⟩,
  ⟨k!"supedot;", [10948]⟩, ⟨k!"suphsol;", [10185]⟩, ⟨k!"suphsub;", [10967]⟩,
  ⟨k!"suplarr;", [10619]⟩, ⟨k!"supmult;", [10946]⟩, ⟨k!"supnE;", [10956]⟩]

/-- `html/defs/entities.inc:2001-2100`. -/
def rows20 : List Row := [
  ⟨k!"supne;", [8843]⟩, ⟨k!"supplus;", [10944]⟩, ⟨k!"supset;", [8835]⟩, ⟨k!"supseteq;", [8839]⟩,
  ⟨k!"supseteqq;", [10950]⟩, ⟨k!"supsetneq;", [8843]⟩, ⟨k!"supsetneqq;", [10956]⟩,
  ⟨k!"supsim;", [10952]⟩, ⟨k!"supsub;", [10964]⟩, ⟨k!"supsup;", [10966]⟩, ⟨k!"swArr;", [8665]⟩,
  ⟨k!"swarhk;", [10534]⟩, ⟨k!"swarr;", [8601]⟩, ⟨k!"swarrow;", [8601]⟩, ⟨k!"swnwar;", [10538]⟩,
  ⟨k!"szlig", [223]⟩, ⟨k!"szlig;", [223]⟩, ⟨k!"target;", [8982]⟩, ⟨k!"tau;", [964]⟩,
  ⟨k!"tbrk;", [9140]⟩, ⟨k!"tcaron;", [357]⟩, ⟨k!"tcedil;", [355]⟩, ⟨k!"tcy;", [1090]⟩,
  ⟨k!"tdot;", [8411]⟩, ⟨k!"telrec;", [8981]⟩, ⟨k!"tfr;", [120113]⟩, ⟨k!"there4;", [8756]⟩,
  ⟨k!"therefore;", [8756]⟩, ⟨k!"theta;", [952]⟩, ⟨k!"thetasym;", [977]⟩, ⟨k!"thetav;", [977]⟩,
  ⟨k!"thickapprox;", [8776]⟩, ⟨k!"thicksim;", [8764]⟩, ⟨k!"thinsp;", [8201]⟩,
  ⟨k!"thkap;", [8776]⟩, ⟨k!"thksim;", [8764]⟩, ⟨k!"thorn", [254]⟩, ⟨k!"thorn;", [254]⟩,
  ⟨k!"tilde;", [732]⟩, ⟨k!"times", [215]⟩, ⟨k!"times;", [215]⟩, ⟨k!"timesb;", [8864]⟩,
  ⟨k!"timesbar;", [10801]⟩, ⟨k!"timesd;", [10800]⟩, ⟨k!"tint;", [8749]⟩, ⟨k!"toea;", [10536]⟩,
  ⟨k!"top;", [8868]⟩, ⟨k!"topbot;", [9014]⟩, ⟨k!"topcir;", [10993]⟩, ⟨k!"topf;", [120165]⟩,
  ⟨k!"topfork;", [10970]⟩, ⟨k!"tosa;", [10537]⟩, ⟨k!"tprime;", [8244]⟩, ⟨k!"trade;", [8482]⟩,
  ⟨k!"triangle;", [9653]⟩, ⟨k!"triangledown;", [9663]⟩, ⟨k!"triangleleft;", [9667]⟩,
  ⟨k!"trianglelefteq;", [8884]⟩, ⟨k!"triangleq;", [8796]⟩, ⟨k!"triangleright;", [9657]⟩,
  ⟨k!"trianglerighteq;", [8885]⟩, ⟨k!"tridot;", [9708]⟩, ⟨k!"trie;", [8796]⟩,
  ⟨k!"triminus;", [10810]⟩, ⟨k!"triplus;", [10809]⟩, ⟨k!"trisb;", [10701]⟩,
  ⟨k!"tritime;", [10811]⟩, ⟨k!"trpezium;", [9186]⟩, ⟨k!"tscr;", [120009]⟩, ⟨k!"tscy;", [1094]⟩,
  ⟨k!"tshcy;", [1115]⟩, ⟨k!"tstrok;", [359]⟩, ⟨k!"twixt;", [8812]⟩,
  ⟨k!"twoheadleftarrow;", [8606]⟩, ⟨k!"twoheadrightarrow;", [8608]⟩, ⟨k!"uArr;", [8657]⟩,
  ⟨k!"uHar;", [10595]⟩, ⟨k!"uacute", [250]⟩, ⟨k!"uacute;", [250]⟩, ⟨k!"uarr;", [8593]⟩,
  ⟨k!"ubrcy;", [1118]⟩, ⟨k!"ubreve;", [365]⟩, ⟨k!"ucirc", [251]⟩, ⟨k!"ucirc;", [251]⟩,
  ⟨k!"ucy;", [1091]⟩, ⟨k!"udarr;", [8645]⟩, ⟨k!"udblac;", [369]⟩, ⟨k!"udhar;", [10606]⟩,
  ⟨k!"ufisht;", [10622]⟩, ⟨k!"ufr;", [120114]⟩, ⟨k!"ugrave", [249]⟩, ⟨k!"ugrave;", [249]⟩,
  ⟨k!"uharl;", [8639]⟩, ⟨k!"uharr;", [8638]⟩, ⟨k!"uhblk;", [9600]⟩, ⟨k!"ulcorn;", [8988]⟩,
  ⟨k!"ulcorner;", [8988]⟩, ⟨k!"ulcrop;", [8975]⟩, ⟨k!"ultri;", [9720]⟩, ⟨k!"umacr;", [363]⟩]

/-- `html/defs/entities.inc:2101-2200`. -/
def rows21 : List Row := [
  ⟨k!"uml", [168]⟩, ⟨k!"uml;", [168]⟩, ⟨k!"uogon;", [371]⟩, ⟨k!"uopf;", [120166]⟩,
  ⟨k!"uparrow;", [8593]⟩, ⟨k!"updownarrow;", [8597]⟩, ⟨k!"upharpoonleft;", [8639]⟩,
  ⟨k!"upharpoonright;", [8638]⟩, ⟨k!"uplus;", [8846]⟩, ⟨k!"upsi;", [965]⟩, ⟨k!"upsih;", [978]⟩,
  ⟨k!"upsilon;", [965]⟩, ⟨k!"upuparrows;", [8648]⟩, ⟨k!"urcorn;", [8989]⟩,
  ⟨k!"urcorner;", [8989]⟩, ⟨k!"urcrop;", [8974]⟩, ⟨k!"uring;", [367]⟩, ⟨k!"urtri;", [9721]⟩,
  ⟨k!"uscr;", [120010]⟩, ⟨k!"utdot;", [8944]⟩, ⟨k!"utilde;", [361]⟩, ⟨k!"utri;", [9653]⟩,
  ⟨k!"utrif;", [9652]⟩, ⟨k!"uuarr;", [8648]⟩, ⟨k!"uuml", [252]⟩, ⟨k!"uuml;", [252]⟩,
  ⟨k!"uwangle;", [10663]⟩, ⟨k!"vArr;", [8661]⟩, ⟨k!"vBar;", [10984]⟩, ⟨k!"vBarv;", [10985]⟩,
  ⟨k!"vDash;", [8872]⟩, ⟨k!"vangrt;", [10652]⟩, ⟨k!"varepsilon;", [1013]⟩,
  ⟨k!"varkappa;", [1008]⟩, ⟨k!"varnothing;", [8709]⟩, ⟨k!"varphi;", [981]⟩, ⟨k!"varpi;", [982]⟩,
  ⟨k!"varpropto;", [8733]⟩, ⟨k!"varr;", [8597]⟩, ⟨k!"varrho;", [1009]⟩, ⟨k!"varsigma;", [962]⟩,
  ⟨k!"varsubsetneq;", [8842, 65024]⟩, ⟨k!"varsubsetneqq;", [10955, 65024]⟩,
  ⟨k!"varsupsetneq;", [8843, 65024]⟩, ⟨k!"varsupsetneqq;", [10956, 65024]⟩,
  ⟨k!"vartheta;", [977]⟩, ⟨k!"vartriangleleft;", [8882]⟩, ⟨k!"vartriangleright;", [8883]⟩,
  ⟨k!"vcy;", [1074]⟩, ⟨k!"vdash;", [8866]⟩, ⟨k!"vee;", [8744]⟩, ⟨k!"veebar;", [8891]⟩,
  ⟨k!"veeeq;", [8794]⟩, ⟨k!"vellip;", [8942]⟩, ⟨k!"verbar;", [124]⟩, ⟨k!"vert;", [124]⟩,
  ⟨k!"vfr;", [120115]⟩, ⟨k!"vltri;", [8882]⟩, ⟨k!"vnsub;", [8834, 8402]⟩,
  ⟨k!"vnsup;", [8835, 8402]⟩, ⟨k!"vopf;", [120167]⟩, ⟨k!"vprop;", [8733]⟩, ⟨k!"vrtri;", [8883]⟩,
  ⟨k!"vscr;", [120011]⟩, ⟨k!"vsubnE;", [10955, 65024]⟩, ⟨k!"vsubne;", [8842, 65024]⟩,
  ⟨k!"vsupnE;", [10956, 65024]⟩, ⟨k!"vsupne;", [8843, 65024]⟩, ⟨k!"vzigzag;", [10650]⟩,
  ⟨k!"wcirc;", [373]⟩, ⟨k!"wedbar;", [10847]⟩, ⟨k!"wedge;", [8743]⟩, ⟨k!"wedgeq;", [8793]⟩,
  ⟨k!"weierp;", [8472]⟩, ⟨k!"wfr;", [120116]⟩, ⟨k!"wopf;", [120168]⟩, ⟨k!"wp;", [8472]⟩,
  ⟨k!"wr;", [8768]⟩, ⟨k!"wreath;", [8768]⟩, ⟨k!"wscr;", [120012]⟩, ⟨k!"xcap;", [8898]⟩,
  ⟨k!"xcirc;", [9711]⟩, ⟨k!"xcup;", [8899]⟩, ⟨k!"xdtri;", [9661]⟩, ⟨k!"xfr;", [120117]⟩,
  ⟨k!"xhArr;", [10234]⟩, ⟨k!"xharr;", [10231]⟩, ⟨k!"xi;", [958]⟩, ⟨k!"xlArr;", [10232]⟩,
  ⟨k!"xlarr;", [10229]⟩, ⟨k!"xmap;", [10236]⟩, ⟨k!"xnis;", [8955]⟩, ⟨k!"xodot;", [10752]⟩,
  ⟨k!"xopf;", [120169]⟩, ⟨k!"xoplus;", [10753]⟩, ⟨k!"xotime;", [10754]⟩, ⟨k!"xrArr;", [10233]⟩,
  ⟨k!"xrarr;", [10230]⟩, ⟨k!"xscr;", [120013]⟩, ⟨k!"xsqcup;", [10758]⟩]

/-- `html/defs/entities.inc:2201-2231`. -/
def rows22 : List Row := [
  ⟨k!"xuplus;", [10756]⟩, ⟨k!"xutri;", [9651]⟩, ⟨k!"xvee;", [8897]⟩, ⟨k!"xwedge;", [8896]⟩,
  ⟨k!"yacute", [253]⟩, ⟨k!"yacute;", [253]⟩, ⟨k!"yacy;", [1103]⟩, ⟨k!"ycirc;", [375]⟩,
  ⟨k!"ycy;", [1099]⟩, ⟨k!"yen", [165]⟩, ⟨k!"yen;", [165]⟩, ⟨k!"yfr;", [120118]⟩,
  ⟨k!"yicy;", [1111]⟩, ⟨k!"yopf;", [120170]⟩, ⟨k!"yscr;", [120014]⟩, ⟨k!"yucy;", [1102]⟩,
  ⟨k!"yuml", [255]⟩, ⟨k!"yuml;", [255]⟩, ⟨k!"zacute;", [378]⟩, ⟨k!"zcaron;", [382]⟩,
  ⟨k!"zcy;", [1079]⟩, ⟨k!"zdot;", [380]⟩, ⟨k!"zeetrf;", [8488]⟩, ⟨k!"zeta;", [950]⟩,
  ⟨k!"zfr;", [120119]⟩, ⟨k!"zhcy;", [1078]⟩, ⟨k!"zigrarr;", [8669]⟩, ⟨k!"zopf;", [120171]⟩,
  ⟨k!"zscr;", [120015]⟩, ⟨k!"zwj;", [8205]⟩, ⟨k!"zwnj;", [8204]⟩]

/-- The whole table.  `html/defs/entities.inc:1-2231`. -/
def rows : List Row :=
  [rows0, rows1, rows2, rows3, rows4, rows5, rows6, rows7, rows8, rows9, rows10, rows11,
   rows12, rows13, rows14, rows15, rows16, rows17, rows18, rows19, rows20, rows21, rows22].flatten

end Verif.Html
