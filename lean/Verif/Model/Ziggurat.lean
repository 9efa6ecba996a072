import Verif.Model.Rand
import Mathlib.Analysis.SpecialFunctions.Log.Basic

/-!
# Normal and exponential numbers (mat/internal/rand/normal.go, exp.go)

The ziggurat method: a word of the source chooses a strip (its low bits) and a point in it; most points are returned at
once, the others after a comparison with the density, and the base strip hands over to a separate tail.

Simplifications:
* The tables `wn`, `fn`, `we`, `fe` are `float32` literals. The decimals of the source are listed here as integers in a
  fixed unit; the `float32` numbers are parameters (`Tables`), of which the theorems assume only that they are within the
  relative distance 2^-24 of the decimals, as rounding to nearest gives.
* The arithmetic is that of the reals: the products `float64(j)*float64(wn[i])` are exact up to one rounding in the
  code, and the comparison with the density is between `float32` numbers.
* `math.Log(0)` is `-Inf`: an infinite intermediate or final value is `none` (of `Option ℝ`).
* An index outside the tables panics: `none` of the outer `Option`, as is an endless loop.
-/

set_option autoImplicit false
set_option linter.unusedSimpArgs false

namespace Verif.Rand

/-! ## The tables -/

/-- `kn` (normal.go:67-94). -/
def knTab : List Nat :=
  [0x76ad2212, 0x0, 0x600f1b53, 0x6ce447a6, 0x725b46a2, 0x7560051d, 0x774921eb, 0x789a25bd, 0x799045c3, 0x7a4bce5d,
   0x7adf629f, 0x7b5682a6, 0x7bb8a8c6, 0x7c0ae722, 0x7c50cce7, 0x7c8cec5b, 0x7cc12cd6, 0x7ceefed2, 0x7d177e0b,
   0x7d3b8883, 0x7d5bce6c, 0x7d78dd64, 0x7d932886, 0x7dab0e57, 0x7dc0dd30, 0x7dd4d688, 0x7de73185, 0x7df81cea,
   0x7e07c0a3, 0x7e163efa, 0x7e23b587, 0x7e303dfd, 0x7e3beec2, 0x7e46db77, 0x7e51155d, 0x7e5aabb3, 0x7e63abf7,
   0x7e6c222c, 0x7e741906, 0x7e7b9a18, 0x7e82adfa, 0x7e895c63, 0x7e8fac4b, 0x7e95a3fb, 0x7e9b4924, 0x7ea0a0ef,
   0x7ea5b00d, 0x7eaa7ac3, 0x7eaf04f3, 0x7eb3522a, 0x7eb765a5, 0x7ebb4259, 0x7ebeeafd, 0x7ec2620a, 0x7ec5a9c4,
   0x7ec8c441, 0x7ecbb365, 0x7ece78ed, 0x7ed11671, 0x7ed38d62, 0x7ed5df12, 0x7ed80cb4, 0x7eda175c, 0x7edc0005,
   0x7eddc78e, 0x7edf6ebf, 0x7ee0f647, 0x7ee25ebe, 0x7ee3a8a9, 0x7ee4d473, 0x7ee5e276, 0x7ee6d2f5, 0x7ee7a620,
   0x7ee85c10, 0x7ee8f4cd, 0x7ee97047, 0x7ee9ce59, 0x7eea0eca, 0x7eea3147, 0x7eea3568, 0x7eea1aab, 0x7ee9e071,
   0x7ee98602, 0x7ee90a88, 0x7ee86d08, 0x7ee7ac6a, 0x7ee6c769, 0x7ee5bc9c, 0x7ee48a67, 0x7ee32efc, 0x7ee1a857,
   0x7edff42f, 0x7ede0ffa, 0x7edbf8d9, 0x7ed9ab94, 0x7ed7248d, 0x7ed45fae, 0x7ed1585c, 0x7ece095f, 0x7eca6ccb,
   0x7ec67be2, 0x7ec22eee, 0x7ebd7d1a, 0x7eb85c35, 0x7eb2c075, 0x7eac9c20, 0x7ea5df27, 0x7e9e769f, 0x7e964c16,
   0x7e8d44ba, 0x7e834033, 0x7e781728, 0x7e6b9933, 0x7e5d8a1a, 0x7e4d9ded, 0x7e3b737a, 0x7e268c2f, 0x7e0e3ff5,
   0x7df1aa5d, 0x7dcf8c72, 0x7da61a1e, 0x7d72a0fb, 0x7d30e097, 0x7cd9b4ab, 0x7c600f1a, 0x7ba90bdc, 0x7a722176,
   0x77d664e5]

/-- `wn` (normal.go:95-128), in units of 10^-17. -/
def wnTab : List Nat :=
  [172904050, 12680929, 16897518, 19862688, 22232431, 24244937, 26016130, 27611988, 29073963, 30429970, 31699796,
   32898020, 34035738, 35121603, 36162510, 37164058, 38130857, 39066758, 39975012, 40858400, 41719309, 42559822,
   43381760, 44186720, 44976130, 45751258, 46513240, 47263105, 48001775, 48730100, 49448850, 50158730, 50860405,
   51554460, 52241467, 52921934, 53596350, 54265170, 54928817, 55587696, 56242190, 56892646, 57539410, 58182820,
   58823170, 59460770, 60095900, 60728840, 61359850, 61989200, 62617134, 63243905, 63869740, 64494880, 65119560,
   65744005, 66368433, 66993070, 67618144, 68243870, 68870465, 69498150, 70127150, 70757680, 71389966, 72024240,
   72660730, 73299660, 73941280, 74585826, 75233547, 75884700, 76539540, 77198350, 77861395, 78528970, 79201380,
   79878920, 80561924, 81250730, 81945690, 82647167, 83355556, 84071270, 84794730, 85526400, 86266755, 87016316,
   87775620, 88545243, 89325820, 90117996, 90922500, 91740080, 92571584, 93417880, 94279970, 95158890, 96055790,
   96971930, 97908690, 98867600, 99850360, 100858820, 101895090, 102961510, 104060690, 105195660, 106369800,
   107587020, 108851830, 110169470, 111546110, 112989020, 114506960, 116110520, 117812760, 119629950, 121582870,
   123698560, 126013230, 128576970, 131462020, 134778400, 138706360, 143574030, 150086590, 160309480]

/-- `fn` (normal.go:129-156), in units of 10^-10. -/
def fnTab : List Nat :=
  [10000000000, 9635997000, 9362827000, 9130436000, 8922816500, 8732430300, 8555006000, 8387836000, 8229072000,
   8077383000, 7931770000, 7791461000, 7655842000, 7524416000, 7396772500, 7272569000, 7151515000, 7033361000,
   6917891500, 6804918600, 6694277000, 6585820000, 6479418000, 6374954600, 6272325000, 6171434000, 6072195000,
   5974532000, 5878370400, 5783647000, 5690300000, 5598274000, 5507518000, 5417983500, 5329627000, 5242405500,
   5156282000, 5071220400, 4987186500, 4904148300, 4822076600, 4740943000, 4660721400, 4581387000, 4502916300,
   4425287200, 4348478300, 4272470000, 4197243500, 4122780300, 4049064200, 3976078600, 3903808000, 3832238000,
   3761354700, 3691144600, 3621595000, 3552693700, 3484429700, 3416791600, 3349768500, 3283351000, 3217529000,
   3152294000, 3087636200, 3023548400, 2960021500, 2897048600, 2834622000, 2772735000, 2711380700, 2650553000,
   2590245600, 2530453000, 2471169500, 2412390000, 2354109400, 2296323200, 2239027000, 2182216500, 2125887700,
   2070037100, 2014661100, 1959756500, 1905320400, 1851349900, 1797842700, 1744796300, 1692209000, 1640078600,
   1588403700, 1537183100, 1486415700, 1436100800, 1386237700, 1336826500, 1287867100, 1239359800, 1191305440,
   1143705100, 1096560200, 1049872560, 1003644400, 957878460, 912578000, 867746700, 823389000, 779509840, 736115050,
   693211200, 650805800, 608907700, 567526630, 526674000, 486362950, 446608630, 407428670, 368843900, 330878870,
   293563180, 256932920, 221033040, 185921020, 151672980, 118394780, 86244850, 55489950, 26696292]

/-- `ke` (exp.go:47-100). -/
def keTab : List Nat :=
  [0xe290a139, 0x0, 0x9beadebc, 0xc377ac71, 0xd4ddb990, 0xde893fb8, 0xe4a8e87c, 0xe8dff16a, 0xebf2deab, 0xee49a6e8,
   0xf0204efd, 0xf19bdb8e, 0xf2d458bb, 0xf3da104b, 0xf4b86d78, 0xf577ad8a, 0xf61de83d, 0xf6afb784, 0xf730a573,
   0xf7a37651, 0xf80a5bb6, 0xf867189d, 0xf8bb1b4f, 0xf9079062, 0xf94d70ca, 0xf98d8c7d, 0xf9c8928a, 0xf9ff175b,
   0xfa319996, 0xfa6085f8, 0xfa8c3a62, 0xfab5084e, 0xfadb36c8, 0xfaff0410, 0xfb20a6ea, 0xfb404fb4, 0xfb5e2951,
   0xfb7a59e9, 0xfb95038c, 0xfbae44ba, 0xfbc638d8, 0xfbdcf892, 0xfbf29a30, 0xfc0731df, 0xfc1ad1ed, 0xfc2d8b02,
   0xfc3f6c4d, 0xfc5083ac, 0xfc60ddd1, 0xfc708662, 0xfc7f8810, 0xfc8decb4, 0xfc9bbd62, 0xfca9027c, 0xfcb5c3c3,
   0xfcc20864, 0xfccdd70a, 0xfcd935e3, 0xfce42ab0, 0xfceebace, 0xfcf8eb3b, 0xfd02c0a0, 0xfd0c3f59, 0xfd156b7b,
   0xfd1e48d6, 0xfd26daff, 0xfd2f2552, 0xfd372af7, 0xfd3eeee5, 0xfd4673e7, 0xfd4dbc9e, 0xfd54cb85, 0xfd5ba2f2,
   0xfd62451b, 0xfd68b415, 0xfd6ef1da, 0xfd750047, 0xfd7ae120, 0xfd809612, 0xfd8620b4, 0xfd8b8285, 0xfd90bcf5,
   0xfd95d15e, 0xfd9ac10b, 0xfd9f8d36, 0xfda43708, 0xfda8bf9e, 0xfdad2806, 0xfdb17141, 0xfdb59c46, 0xfdb9a9fd,
   0xfdbd9b46, 0xfdc170f6, 0xfdc52bd8, 0xfdc8ccac, 0xfdcc542d, 0xfdcfc30b, 0xfdd319ef, 0xfdd6597a, 0xfdd98245,
   0xfddc94e5, 0xfddf91e6, 0xfde279ce, 0xfde54d1f, 0xfde80c52, 0xfdeab7de, 0xfded5034, 0xfdefd5be, 0xfdf248e3,
   0xfdf4aa06, 0xfdf6f984, 0xfdf937b6, 0xfdfb64f4, 0xfdfd818d, 0xfdff8dd0, 0xfe018a08, 0xfe03767a, 0xfe05536c,
   0xfe07211c, 0xfe08dfc9, 0xfe0a8fab, 0xfe0c30fb, 0xfe0dc3ec, 0xfe0f48b1, 0xfe10bf76, 0xfe122869, 0xfe1383b4,
   0xfe14d17c, 0xfe1611e7, 0xfe174516, 0xfe186b2a, 0xfe19843e, 0xfe1a9070, 0xfe1b8fd6, 0xfe1c8289, 0xfe1d689b,
   0xfe1e4220, 0xfe1f0f26, 0xfe1fcfbc, 0xfe2083ed, 0xfe212bc3, 0xfe21c745, 0xfe225678, 0xfe22d95f, 0xfe234ffb,
   0xfe23ba4a, 0xfe241849, 0xfe2469f2, 0xfe24af3c, 0xfe24e81e, 0xfe25148b, 0xfe253474, 0xfe2547c7, 0xfe254e70,
   0xfe25485a, 0xfe25356a, 0xfe251586, 0xfe24e88f, 0xfe24ae64, 0xfe2466e1, 0xfe2411df, 0xfe23af34, 0xfe233eb4,
   0xfe22c02c, 0xfe22336b, 0xfe219838, 0xfe20ee58, 0xfe20358c, 0xfe1f6d92, 0xfe1e9621, 0xfe1daef0, 0xfe1cb7ac,
   0xfe1bb002, 0xfe1a9798, 0xfe196e0d, 0xfe1832fd, 0xfe16e5fe, 0xfe15869d, 0xfe141464, 0xfe128ed3, 0xfe10f565,
   0xfe0f478c, 0xfe0d84b1, 0xfe0bac36, 0xfe09bd73, 0xfe07b7b5, 0xfe059a40, 0xfe03644c, 0xfe011504, 0xfdfeab88,
   0xfdfc26e9, 0xfdf98629, 0xfdf6c83b, 0xfdf3ec01, 0xfdf0f04a, 0xfdedd3d1, 0xfdea953d, 0xfde7331e, 0xfde3abe9,
   0xfddffdfb, 0xfddc2791, 0xfdd826cd, 0xfdd3f9a8, 0xfdcf9dfc, 0xfdcb1176, 0xfdc65198, 0xfdc15bb3, 0xfdbc2ce2,
   0xfdb6c206, 0xfdb117be, 0xfdab2a63, 0xfda4f5fd, 0xfd9e7640, 0xfd97a67a, 0xfd908192, 0xfd8901f2, 0xfd812182,
   0xfd78d98e, 0xfd7022bb, 0xfd66f4ed, 0xfd5d4732, 0xfd530f9c, 0xfd48432b, 0xfd3cd59a, 0xfd30b936, 0xfd23dea4,
   0xfd16349e, 0xfd07a7a3, 0xfcf8219b, 0xfce7895b, 0xfcd5c220, 0xfcc2aadb, 0xfcae1d5e, 0xfc97ed4e, 0xfc7fe6d4,
   0xfc65ccf3, 0xfc495762, 0xfc2a2fc8, 0xfc07ee19, 0xfbe213c1, 0xfbb8051a, 0xfb890078, 0xfb5411a5, 0xfb180005,
   0xfad33482, 0xfa839276, 0xfa263b32, 0xf9b72d1c, 0xf930a1a2, 0xf889f023, 0xf7b577d2, 0xf69c650c, 0xf51530f0,
   0xf2cb0e3c, 0xeeefb15d, 0xe6da6ecf]

/-- `we` (exp.go:101-166), in units of 10^-18. -/
def weTab : List Nat :=
  [2024955500, 14866740, 24409617, 31968806, 38446770, 44228204, 49516443, 54433590, 59059440, 63449420, 67643814,
   71672945, 75560320, 79324580, 82980790, 86541320, 90016515, 93415074, 96744430, 100010990, 103220314, 106377254,
   109486115, 112550680, 115574350, 118560150, 121510830, 124428860, 127316480, 130175750, 133008530, 135816570,
   138601420, 141364570, 144107380, 146831080, 149536870, 152225830, 154899000, 157557330, 160201710, 162833010,
   165452030, 168059510, 170656170, 173242700, 175819730, 178387870, 180947740, 183499850, 186044760, 188582980,
   191114980, 193641260, 196162230, 198678350, 201190040, 203697680, 206201680, 208702400, 211200220, 213695500,
   216188550, 218679740, 221169360, 223657750, 226145200, 228632020, 231118500, 233604940, 236091600, 238578740,
   241066670, 243555620, 246045880, 248537700, 251031280, 253526950, 256024900, 258525400, 261028670, 263534940,
   266044460, 268557450, 271074160, 273594790, 276119600, 278648770, 281182550, 283721190, 286264850, 288813800,
   291368260, 293928400, 296494520, 299066770, 301645400, 304230640, 306822680, 309421770, 312028130, 314641950,
   317263520, 319893000, 322530640, 325176700, 327831350, 330494850, 333167440, 335849380, 338540830, 341242120,
   343953420, 346675000, 349407110, 352150030, 354903970, 357669170, 360445950, 363234550, 366035200, 368848230,
   371673860, 374512400, 377364100, 380229300, 383108270, 386001300, 388908660, 391830700, 394767750, 397720080,
   400688040, 403671960, 406672170, 409689000, 412722860, 415774050, 418842960, 421929940, 425035400, 428159700,
   431303300, 434466520, 437649860, 440853700, 444078470, 447324650, 450592670, 453883010, 457196200, 460532670,
   463892920, 467277550, 470687000, 474121900, 477582750, 481070200, 484584800, 488127150, 491697960, 495297750,
   498927300, 502587250, 506278350, 510001300, 513756870, 517545840, 521369000, 525227250, 529121360, 533052200,
   537020800, 541028060, 545075000, 549162500, 553291800, 557463850, 561679900, 565941070, 570248570, 574603700,
   579007730, 583462100, 587968230, 592527600, 597141700, 601812200, 606540800, 611329200, 616179330, 621092950,
   626072200, 631119160, 636235950, 641424970, 646688540, 652029260, 657449760, 662952860, 668541560, 674218800,
   679988000, 685852600, 691816160, 697882600, 704056000, 710340700, 716741200, 723262560, 729909850, 736688600,
   743604730, 750664530, 757874760, 765242650, 772775950, 780483000, 788372800, 796455070, 804740200, 813239640,
   821965700, 830931900, 840152800, 849644500, 859424700, 869512740, 879930100, 890700460, 901850300, 913409200,
   925410100, 937890400, 950892300, 964463800, 978660300, 993544800, 1009191300, 1025686000, 1043130600, 1061646500,
   1081380000, 1102509600, 1125256400, 1149898600, 1176793200, 1206409000, 1239378600, 1276585000, 1319313900,
   1369543500, 1430549800, 1508365000, 1616085400, 1792124800]

/-- `fe` (exp.go:167-221), in units of 10^-11. -/
def feTab : List Nat :=
  [100000000000, 93814370000, 90046996000, 87170434000, 84778550000, 82699330000, 80842170000, 79152760000,
   77595687000, 76146340000, 74786860000, 73503810000, 72286767000, 71127474000, 70019263000, 68956650000,
   67935055000, 66950630000, 66000086000, 65080583000, 64189670000, 63325197000, 62485270000, 61668220000,
   60872537000, 60096896000, 59340090000, 58601034000, 57878740000, 57172304000, 56480920000, 55803830000,
   55140340000, 54489820000, 53851690000, 53225386000, 52610420000, 52006316000, 51412640000, 50828975000,
   50254950000, 49690200000, 49134386000, 48587200000, 48048335000, 47517520000, 46994483000, 46478975000,
   45970762000, 45469615000, 44975325000, 44487688000, 44006512000, 43531612000, 43062815000, 42599955000,
   42142874000, 41691420000, 41245446000, 40804818000, 40369400000, 39939070000, 39513698000, 39093173000,
   38677382000, 38266218000, 37859577000, 37457356000, 37059465000, 36665810000, 36276300000, 35890847000,
   35509375000, 35131800000, 34758050000, 34388044000, 34021714000, 33658990000, 33299807000, 32944095000,
   32591796000, 32242850000, 31897190000, 31554767000, 31215525000, 30879408000, 30546360000, 30216340000,
   29889292000, 29565170000, 29243928000, 28925523000, 28609908000, 28297043000, 27986884000, 27679393000,
   27374530000, 27072260000, 26772540000, 26475343000, 26180625000, 25888354000, 25598502000, 25311030000,
   25025907000, 24743107000, 24462597000, 24184346000, 23908329000, 23634516000, 23362878000, 23093392000,
   22826030000, 22560766000, 22297576000, 22036438000, 21777324000, 21520215000, 21265087000, 21011916000,
   20760682000, 20511365000, 20263945000, 20018397000, 19774707000, 19532852000, 19292815000, 19054577000,
   18818120000, 18583426000, 18350479000, 18119260000, 17889754000, 17661946000, 17435817000, 17211354000,
   16988540000, 16767362000, 16547804000, 16329853000, 16113494000, 15898713000, 15685499000, 15473837000,
   15263714000, 15055119000, 14848037000, 14642459000, 14438373000, 14235765000, 14034624000, 13834943000,
   13636707000, 13439907000, 13244532000, 13050574000, 12858020000, 12666863000, 12477092000, 12288698000,
   12101672000, 11916005600, 11731690000, 11548716600, 11367077000, 11186763000, 11007768000, 10830083000,
   10653701000, 10478614000, 10304816000, 10132300000, 9961058000, 9791085000, 9622374000, 9454919000, 9288713000,
   9123751500, 8960028000, 8797537500, 8636274000, 8476233000, 8317409500, 8159798400, 8003395000, 7848195000,
   7694194500, 7541389000, 7389775000, 7239348400, 7090106000, 6942043500, 6795159000, 6649449500, 6504912000,
   6361543400, 6219341600, 6078304700, 5938430500, 5799717500, 5662164000, 5525769000, 5390531200, 5256449400,
   5123523600, 4991753400, 4861138400, 4731679300, 4603376200, 4476230000, 4350241300, 4225412400, 4101744300,
   3979239200, 3857899500, 3737728300, 3618728400, 3500903800, 3384258200, 3268796200, 3154523300, 3041444300,
   2929566000, 2818895000, 2709438500, 2601204600, 2494202600, 2388442100, 2283933600, 2180688800, 2078720400,
   1978042300, 1878670000, 1780620000, 1683910700, 1588562100, 1494596800, 1402039200, 1310916500, 1221259200,
   1133101300, 1046481000, 961441400, 878031500, 796307700, 716335330, 638190600, 561964230, 487765580, 415729500,
   346026480, 278879890, 214596770, 153629980, 96726930, 45413437]

/-- The `float32` tables `wn`, `fn` (or `we`, `fe`): width of a point in a strip, and height of its top. -/
structure Tables where
  w : Nat → ℝ
  f : Nat → ℝ

/-- `rn` (normal.go:20). -/
noncomputable def rn : ℝ := 3442619855899 / 10 ^ 12

/-- `re` (exp.go:20). -/
noncomputable def re : ℝ := 769711747013104972 / 10 ^ 17

section

variable {S : Type} (next : S → Word × S)

/-! ## NormFloat64 -/

/-- `absInt32` (normal.go:23-28): `-i` wraps around, and the result is read as unsigned. -/
def absInt32 (j : BitVec 32) : Nat := if j.toInt < 0 then (-j).toNat else j.toNat

/-- `-math.Log(u)`; infinite at 0. -/
noncomputable def negLog (u : ℝ) : Option ℝ := if u = 0 then none else some (-Real.log u)

/-- `y+y >= x*x` (normal.go:53), where infinite is greater than everything finite and not less than itself. -/
noncomputable def tailAccept (x y : Option ℝ) : Bool :=
  match x, y with
  | some x, some y => decide (x * x ≤ y + y)
  | none, some _ => false
  | _, none => true

/-- The loop for the base strip (normal.go:50-56). -/
noncomputable def normTail (s : S) : Option (Option ℝ × S) := do
  let a ← float64 next s
  let b ← float64 next a.2
  let x := (negLog a.1).map (· * (1 / rn))
  let y := negLog b.1
  if tailAccept x y then some (x, b.2) else normTail b.2
partial_fixpoint

/-- `fn[i]+u*(fn[i-1]-fn[i]) < exp(-.5*x*x)` (normal.go:62). -/
def normSlow (T : Tables) (i : Nat) (x u : ℝ) : Prop :=
  T.f i + u * (T.f (i - 1) - T.f i) < Real.exp (-(1 / 2) * x * x)

open Classical in
/-- `NormFloat64` (normal.go:37-65). An infinite result is `none`. -/
noncomputable def normFloat64 (T : Tables) (s : S) : Option (Option ℝ × S) := do
  let r := uint32 next s
  let j := r.1
  let i := (j &&& 0x7F).toNat
  let x := (j.toInt : ℝ) * T.w i
  let k ← knTab[i]?
  if absInt32 j < k then some (some x, r.2)
  else if i = 0 then do
    let t ← normTail next r.2
    some (t.1.map (fun x => if 0 < j.toInt then rn + x else -rn - x), t.2)
  else do
    let u ← float64 next r.2
    if normSlow T i x u.1 then some (some x, u.2) else normFloat64 T u.2
partial_fixpoint

/-! ## ExpFloat64 -/

/-- `fe[i]+u*(fe[i-1]-fe[i]) < exp(-x)` (exp.go:41). -/
def expSlow (T : Tables) (i : Nat) (x u : ℝ) : Prop :=
  T.f i + u * (T.f (i - 1) - T.f i) < Real.exp (-x)

open Classical in
/-- `ExpFloat64` (exp.go:30-45). An infinite result is `none`. -/
noncomputable def expFloat64 (T : Tables) (s : S) : Option (Option ℝ × S) := do
  let r := uint32 next s
  let j := r.1
  let i := (j &&& 0xFF).toNat
  let x := (j.toNat : ℝ) * T.w i
  let k ← keTab[i]?
  if j.toNat < k then some (some x, r.2)
  else if i = 0 then do
    let u ← float64 next r.2
    some ((negLog u.1).map (re + ·), u.2)
  else do
    let u ← float64 next r.2
    if expSlow T i x u.1 then some (some x, u.2) else expFloat64 T u.2
partial_fixpoint

end

end Verif.Rand
