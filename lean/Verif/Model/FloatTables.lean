import Verif.Model.Basic

/-
The multiplication tables of `cache_values<double>` and `cache_values<float>`, copied from
json_struct.h by tools/tables.py. Generated: do not edit.
-/

namespace JsonStruct

/-- JSH 6733-7058 `cache_values<double>::less_than`: low and high word of each entry. -/
def doubleLessThan : List (Nat × Nat) := [
  (0, 1152921504606846976),
  (0, 720575940379279360),
  (0, 900719925474099200),
  (0, 1125899906842624000),
  (0, 703687441776640000),
  (0, 879609302220800000),
  (0, 1099511627776000000),
  (0, 687194767360000000),
  (0, 858993459200000000),
  (0, 1073741824000000000),
  (0, 671088640000000000),
  (0, 838860800000000000),
  (0, 1048576000000000000),
  (0, 655360000000000000),
  (0, 819200000000000000),
  (0, 1024000000000000000),
  (0, 640000000000000000),
  (0, 800000000000000000),
  (0, 1000000000000000000),
  (0, 625000000000000000),
  (0, 781250000000000000),
  (0, 976562500000000000),
  (0, 610351562500000000),
  (0, 762939453125000000),
  (0, 953674316406250000),
  (0, 596046447753906250),
  (9223372036854775808, 745058059692382812),
  (11529215046068469760, 931322574615478515),
  (4899916394579099648, 582076609134674072),
  (6124895493223874560, 727595761418342590),
  (16879491403384619008, 909494701772928237),
  (7264306198948610048, 1136868377216160297),
  (16069406420411351040, 710542735760100185),
  (6251699970232025088, 888178419700125232),
  (7814624962790031360, 1110223024625156540),
  (14107512638598545408, 693889390390722837),
  (3799332742966018048, 867361737988403547),
  (137479910280134656, 1084202172485504434),
  (4697610962352472064, 677626357803440271),
  (1260327684513202176, 847032947254300339),
  (15410467660923666432, 1058791184067875423),
  (16549071315718373376, 661744490042422139),
  (16074653126220578816, 827180612553027674),
  (10869944370920947712, 1033975765691284593),
  (18322930277894062080, 646234853557052870),
  (13680290810512801792, 807793566946316088),
  (17100363513141002240, 1009741958682895110),
  (6076041177285738496, 631088724176809444),
  (7595051471607173120, 788860905221011805),
  (14105500357936354304, 986076131526264756),
  (18039309760564997248, 616297582203915472),
  (4102393126996694944, 770371977754894341),
  (9739677427173256584, 962964972193617926),
  (1475612373555897461, 601853107621011204),
  (1844515466944871826, 752316384526264005),
  (6917330352108477686, 940395480657830006),
  (18158389525349962266, 587747175411143753),
  (8862928851405289120, 734683969263929692),
  (11078661064256611401, 918354961579912115),
  (9236640311893376347, 1147943701974890144),
  (5772900194933360217, 717464813734306340),
  (7216125243666700271, 896831017167882925),
  (13631842573010763243, 1121038771459853656),
  (8519901608131727026, 700649232162408535),
  (6038190991737270879, 875811540203010669),
  (12159424758098976503, 1094764425253763336),
  (7599640473811860314, 684227765783602085),
  (14111236610692213297, 855284707229502606),
  (8415673726510490813, 1069105884036878258),
  (9871482097496444662, 668191177523048911),
  (7727666603443167924, 835238971903811139),
  (5047897235876572001, 1044048714879763924),
  (12378307809277633308, 652530446799852452),
  (15472884761597041636, 815663058499815565),
  (5506047896714138333, 1019578823124769457),
  (14970494981514806218, 637236764452980910),
  (9489746690038731964, 796545955566226138),
  (2638811325693639147, 995682444457782673),
  (13178472124626994227, 622301527786114170),
  (7249718118928966976, 777876909732642713),
  (13673833667088596624, 972346137165803391),
  (15463675069571454746, 607716335728627119),
  (14717907818536930528, 759645419660783899),
  (13785698754743775257, 949556774575979874),
  (13227747740142247439, 593472984109987421),
  (2699626619895645587, 741841230137484277),
  (7986219293296944888, 927301537671855346),
  (9603073076737978459, 579563461044909591),
  (7392155327495085170, 724454326306136989),
  (13851880177796244366, 905567907882671236),
  (17314850222245305458, 1131959884853339045),
  (13127624398117009863, 707474928033336903),
  (11797844479218874425, 884343660041671129),
  (912247543741429319, 1105429575052088912),
  (570154714838393324, 690893484407555570),
  (9936065430402767463, 863616855509444462),
  (3196709751148683521, 1079521069386805578),
  (6609629612895315105, 674700668366753486),
  (17485409052973919689, 843375835458441857),
  (8021703260935235899, 1054219794323052322),
  (9625250556511910341, 658887371451907701),
  (16643249214067275830, 823609214314884626),
  (11580689480729318980, 1029511517893605783),
  (14155459953096906218, 643444698683503614),
  (8470952904516356965, 804305873354379518),
  (1365319093790670398, 1005382341692974398),
  (14688382488901332711, 628363963558108998),
  (9137106074271890081, 785454954447636248),
  (11421382592839862601, 981818693059545310),
  (2526678102097526221, 613636683162215819),
  (16993405682904071489, 767045853952769773),
  (7406699048347925649, 958807317440962217),
  (16158401951285923291, 599254573400601385),
  (6362944383825240401, 749068216750751732),
  (7953680479781550502, 936335270938439665),
  (16500265345931938823, 585209544336524790),
  (11401959645560147721, 731511930420655988),
  (14252449556950184652, 914389913025819985),
  (3980503890905567103, 1142987391282274982),
  (16322872987098143151, 714367119551421863),
  (15791905215445291035, 892958899439277329),
  (5904823464024450082, 1116198624299096662),
  (17525572720297445013, 697624140186935413),
  (8071907845089642554, 872030175233669267),
  (5478198787934665289, 1090037719042086584),
  (3423874242459165806, 681273574401304115),
  (18114900858356120969, 851591968001630143),
  (18031940054517763307, 1064489960002037679),
  (18187491561714683923, 665306225001273549),
  (8899306396861191192, 831632781251591937),
  (15735819014503876894, 1039540976564489921),
  (2917357856423841202, 649713110352806201),
  (8258383338957189407, 812141387941007751),
  (5711293155269098855, 1015176734926259689),
  (15098773268111656544, 634485459328912305),
  (5038408529857406968, 793106824161140382),
  (15521382699176534519, 991383530201425477),
  (12006707196199028026, 619614706375890923),
  (10396697976821397129, 774518382969863654),
  (3772500434171970603, 968147978712329568),
  (2357812771357481627, 605092486695205980),
  (2947265964196852033, 756365608369007475),
  (17519140510528228754, 945457010461259343),
  (17866991846721224827, 590910631538287089),
  (8498681753119367322, 738638289422858862),
  (1399980154544433344, 923297861778573578),
  (5486673615017658744, 577061163611608486),
  (16081714055626849238, 721326454514510607),
  (15490456551106173644, 901658068143138259),
  (14751384670455329151, 1127072585178922824),
  (9219615419034580719, 704420365736826765),
  (16136205292220613803, 880525457171033456),
  (1723512541566215638, 1100656821463791821),
  (3383038347692578726, 687910513414869888),
  (4228797934615723407, 859888141768587360),
  (5285997418269654259, 1074860177210734200),
  (3303748386418533912, 671787610756708875),
  (17964743538305331102, 839734513445886093),
  (8620871367599500165, 1049668141807357617),
  (16917259650818157363, 656042588629598510),
  (11923202526667920896, 820053235786998138),
  (5680631121480125312, 1025066544733747673),
  (15079609496993548080, 640666590458592295),
  (14237825852814547196, 800833238073240369),
  (3962224260736020283, 1001041547591550462),
  (16311448218242176389, 625650967244719038),
  (11165938235947944678, 782063709055898798),
  (4734050758080155040, 977579636319873498),
  (7570467742227484804, 610987272699920936),
  (9463084677784356005, 763734090874901170),
  (2605483810375669198, 954667613593626463),
  (8545956409125875105, 596667258496016539),
  (6070759492979955977, 745834073120020674),
  (16811821403079720779, 932292591400025842),
  (15119074395352213391, 582682869625016151),
  (14287156975762878835, 728353587031270189),
  (4023888164421434831, 910441983789087737),
  (9641546223954181443, 1138052479736359671),
  (12943495417612445258, 711282799835224794),
  (6955997235160780765, 889103499794030993),
  (13306682562378363860, 1111379374742538741),
  (10622519610700171364, 694612109214086713),
  (17889835531802602109, 868265136517608391),
  (17750608396325864733, 1085331420647010489),
  (4176601220062583602, 678332137904381556),
  (5220751525078229502, 847915172380476945),
  (11137625424775174782, 1059893965475596181),
  (9266858899698178191, 662433728422247613),
  (16195259643050110642, 828042160527809516),
  (1797330480103086687, 1035052700659761896),
  (1123331550064429179, 646907937912351185),
  (6015850456007924378, 808634922390438981),
  (12131499088437293377, 1010793652988048726),
  (2970500911845920456, 631746033117530454),
  (12936498176662176379, 789682541396913067),
  (11558936702400332569, 987103176746141334),
  (2612649420572819952, 616939485466338334),
  (12489183812570800748, 771174356832922917),
  (1776421710431337223, 963967946041153647),
  (8027792596660667620, 602479966275721029),
  (14646426764253222429, 753099957844651286),
  (9084661418461752229, 941374947305814108),
  (14901285423393370951, 588359342066133817),
  (4791548723959549977, 735449177582667272),
  (5989435904949437471, 919311471978334090),
  (16710166918041572647, 1149139339972917612),
  (1220482286921207096, 718212087483073508),
  (1525602858651508870, 897765109353841885),
  (6518689591741773992, 1122206386692302356),
  (13297553031693384553, 701378991682688972),
  (16621941289616730691, 876723739603361215),
  (16165740593593525460, 1095904674504201519),
  (17021116898637035268, 684940421565125949),
  (7441338068014130373, 856175526956407437),
  (13913358603445050871, 1070219408695509296),
  (8695849127153156794, 668887130434693310),
  (1646439372086670185, 836108913043366638),
  (11281421251963113539, 1045136141304208297),
  (133359254835864106, 653210088315130186),
  (9390071105399605940, 816512610393912732),
  (11737588881749507425, 1020640762992390915),
  (5030150041879748189, 637900476870244322),
  (15511059589204461044, 797375596087805402),
  (10165452449650800497, 996719495109756753),
  (17882622827100220070, 622949684443597970),
  (13129906497020499280, 778687105554497463),
  (11800697102848236196, 973358881943121829),
  (9681278698493841575, 608349301214451143),
  (7489912354689914064, 760436626518063929),
  (13974076461789780485, 950545783147579911),
  (15651326816259694659, 594091114467237444),
  (1117414446615066707, 742613893084046806),
  (10620140095123609192, 928267366355058507),
  (4331744550238561793, 580167103971911567),
  (802994669370814337, 725208879964889459),
  (14838801391995681634, 906511099956111823),
  (13936815721567214139, 1133138874945139779),
  (6404666816765814884, 708211796840712362),
  (17229205557812044414, 885264746050890452),
  (3089762873555503901, 1106580932563613066),
  (6542787814399577842, 691613082852258166),
  (17401856804854248111, 864516353565322707),
  (17140634987640422235, 1080645441956653384),
  (10712896867275263896, 675403401222908365),
  (18002807102521467775, 844254251528635456),
  (4056764804442283102, 1055317814410794321),
  (14064693048844896699, 659573634006746450),
  (8357494274201345066, 824467042508433063),
  (5835181824324293428, 1030583803135541329),
  (15176203686271153152, 644114876959713330),
  (9746882570984165633, 805143596199641663),
  (7571917195302819137, 1006429495249552079),
  (11649977274705343816, 629018434530970049),
  (727413538099516059, 786273043163712562),
  (10132638959479170881, 982841303954640702),
  (1721213331247093897, 614275814971650439),
  (15986574719341031083, 767844768714563048),
  (1536474325466737238, 959805960893203811),
  (17101197517912568437, 599878725558252381),
  (7541438842108546835, 749848406947815477),
  (14038484571063071448, 937310508684769346),
  (13385738875341807559, 585819067927980841),
  (2897115538895095736, 732273834909976052),
  (3621394423618869671, 915342293637470065),
  (9138429047950974993, 1144177867046837581),
  (8017361164183053322, 715111166904273488),
  (10021701455228816653, 893888958630341860),
  (12527126819036020816, 1117361198287927325),
  (10135297271111206962, 698350748929954578),
  (3445749552034232895, 872938436162443223),
  (18142244995324954830, 1091173045203054028),
  (2115531085223320961, 681983153251908768),
  (2644413856529151201, 852478941564885960),
  (3305517320661439001, 1065598676956107450),
  (6677634343840787280, 665999173097567156),
  (8347042929800984100, 832498966371958945),
  (15045489680678618029, 1040623707964948681),
  (2485902022783054412, 650389817478092926),
  (12330749565333593823, 812987271847616157),
  (1578378901384828567, 1016234089809520197),
  (3292329822579211806, 635146306130950123),
  (17950470333506178470, 793932882663687653),
  (8603029861600559375, 992416103329609567),
  (12294422691141431465, 620260064581005979),
  (10756342345499401428, 775325080726257474),
  (4222055895019475977, 969156350907821843),
  (332941925173478533, 605722719317388652),
  (416177406466848167, 757153399146735815),
  (14355279813365723921, 946441748933419768),
  (8972049883353577450, 591526093083387355),
  (6603376335764583909, 739407616354234194),
  (17477592456560505694, 924259520442792742),
  (6311809266922928155, 577662200276745464),
  (7889761583653660193, 722077750345931830),
  (638829942712299434, 902597187932414788),
  (798537428390374293, 1128246484915518485),
  (2804928901957677885, 705154053072199053),
  (8117847145874485260, 881442566340248816),
  (10147308932343106575, 1101803207925311020),
  (15565440119569217417, 688627004953319387),
  (14845114131034133868, 860783756191649234),
  (9333020626937891527, 1075979695239561543),
  (12750666919477264060, 672487309524725964),
  (15938333649346580075, 840609136905907455),
  (15311231043255837190, 1050761421132384319),
  (16487048429675980100, 656725888207740199),
  (15997124518667587221, 820907360259675249),
  (6161347593052320314, 1026134200324594062),
  (17685900300939863908, 641333875202871288),
  (3660631302465278269, 801667344003589111),
  (18410847183363761549, 1002084180004486388),
  (2283407452747575160, 626302612502803993),
  (7465945334361856854, 782878265628504991),
  (4720745649524933163, 978597832035631239),
  (9867995058594165083, 611623645022269524),
  (12334993823242706354, 764529556277836905),
  (1583684223771219230, 955661945347296132),
  (10213174676711787827, 597288715842060082),
  (3543096309034958976, 746610894802575103),
  (18263928441575862432, 933263618503218878),
  (6803269257557526116, 583289761564511799),
  (3892400553519519741, 729112201955639749),
  (9477186710326787580, 911390252444549686),
  (2623111351053708667, 1139237815555687108),
  (10862816631263343725, 712023634722304442),
  (4355148752224403848, 890029543402880553)]

/-- JSH 7064-7354 `cache_values<double>::greater_than_equals`: low and high word of each entry. -/
def doubleGreaterEq : List (Nat × Nat) := [
  (0, 1152921504606846976),
  (14757395258967641292, 922337203685477580),
  (11805916207174113034, 737869762948382064),
  (13134081780481200750, 590295810358705651),
  (13635833219286100554, 944473296573929042),
  (3529968945945059797, 755578637259143234),
  (6513323971497958160, 604462909807314587),
  (14110667169138643380, 967140655691703339),
  (14977882550052825027, 773712524553362671),
  (8292957225300349699, 618970019642690137),
  (16958080375222469841, 990352031428304219),
  (17255813114919886196, 792281625142643375),
  (13804650491935908957, 633825300114114700),
  (3640696713387902715, 1014120480182583521),
  (17669952629677963465, 811296384146066816),
  (10446613289000460449, 649037107316853453),
  (13025232447658826395, 1038459371706965525),
  (10420185958127061116, 830767497365572420),
  (8336148766501648892, 664613997892457936),
  (5959140396918817582, 1063382396627932698),
  (12146009947018874712, 850705917302346158),
  (17095505587098920416, 680564733841876926),
  (1527367236164900403, 1088903574147003083),
  (8600591418415740969, 871122859317602466),
  (3191124319990682452, 696898287454081973),
  (1416450097243181600, 1115037259926531157),
  (12201206522020276249, 892029807941224925),
  (9760965217616220999, 713623846352979940),
  (15617544348185953599, 1141798154164767904),
  (16183384293290673203, 913438523331814323),
  (1878660990406807592, 730750818665451459),
  (5192277607067356397, 584600654932361167),
  (11996992986049680559, 935361047891777867),
  (2218896759355923800, 748288838313422294),
  (5464466222226649363, 598631070650737835),
  (8743145955562638982, 957809713041180536),
  (3305167949708200862, 766247770432944429),
  (6333483174508471013, 612998216346355543),
  (6444224264471643298, 980797146154168869),
  (8844728226319224961, 784637716923335095),
  (7075782581055379969, 627710173538668076),
  (3942554500204787304, 1004336277661868922),
  (14222090044389560813, 803469022129495137),
  (3998974406027828004, 642775217703596110),
  (6398359049644524806, 1028440348325753776),
  (1429338424973709522, 822752278660603021),
  (15900865998946608910, 658201822928482416),
  (18062687968830753610, 1053122916685571866),
  (10760801560322692565, 842498333348457493),
  (15987338877741974698, 673998666678765994),
  (14511695760161428548, 1078397866686025591),
  (7920007793387232515, 862718293348820473),
  (13714703864193606658, 690174634679056378),
  (18254177367967860330, 1104279415486490205),
  (14603341894374288264, 883423532389192164),
  (15372022330241340934, 706738825911353731),
  (17216538098902324849, 1130782121458165970),
  (13773230479121859879, 904625697166532776),
  (7329235568555577580, 723700557733226221),
  (2174039640102551741, 578960446186580977),
  (7167812238905993108, 926336713898529563),
  (13112947420608615133, 741069371118823650),
  (10490357936486892106, 592855496895058920),
  (16784572698379027370, 948568795032094272),
  (6048960529219401250, 758855036025675418),
  (12217866052859341646, 607084028820540334),
  (8480539240349215664, 971334446112864535),
  (6784431392279372531, 777067556890291628),
  (12806242743307318671, 621654045512233302),
  (5732593130324068582, 994646472819573284),
  (8275423319001165189, 795717178255658627),
  (17688385099426663120, 636573742604526901),
  (2475974455889288731, 1018517988167243043),
  (9359477194195251631, 814814390533794434),
  (11176930570098111628, 651851512427035547),
  (3125693653189337312, 1042962419883256876),
  (17257950181519111142, 834369935906605500),
  (13806360145215288914, 667495948725284400),
  (3643432158634910646, 1067993517960455041),
  (17672140985875569810, 854394814368364032),
  (6759015159216635201, 683515851494691226),
  (3435726625262795676, 1093625362391505962),
  (13816627744435967510, 874900289913204769),
  (14742651010290684331, 699920231930563815),
  (5141497542755543314, 1119872371088902105),
  (4113198034204434651, 895897896871121684),
  (6979907242105458044, 716718317496897347),
  (14857200402110643194, 1146749307995035755),
  (11885760321688514555, 917399446396028604),
  (13197957072092721967, 733919557116822883),
  (17937063287157998220, 587135645693458306),
  (2873859556259424890, 939417033109533291),
  (17056482903975181205, 751533626487626632),
  (6266488693696324317, 601226901190101306),
  (2647684280430298261, 961963041904162090),
  (2118147424344238609, 769570433523329672),
  (12762564383701121857, 615656346818663737),
  (5662707754954153678, 985050154909861980),
  (4530166203963322943, 788040123927889584),
  (7313481777912568677, 630432099142311667),
  (15390919659402020207, 1008691358627698667),
  (4934038098037795519, 806953086902158934),
  (7636579293172146738, 645562469521727147),
  (15907875683817345105, 1032899951234763435),
  (12726300547053876084, 826319960987810748),
  (17559738067126921513, 661055968790248598),
  (5959488018951612482, 1057689550064397758),
  (12146288044645110632, 846151640051518206),
  (6027681620974178182, 676921312041214565),
  (9644290593558685092, 1083074099265943304),
  (11404781289588858397, 866459279412754643),
  (16502522661154907364, 693167423530203714),
  (15335989813622120813, 1109067877648325943),
  (1200745406671965681, 887254302118660755),
  (960596325337572544, 709803441694928604),
  (8915651750023936718, 1135685506711885766),
  (3443172585277239051, 908548405369508613),
  (10133235697705611887, 726838724295606890),
  (8106588558164489509, 581470979436485512),
  (16659890507805093539, 930353567098376819),
  (17017261220985985154, 744282853678701455),
  (13613808976788788123, 595426282942961164),
  (10714047918636330028, 952682052708737863),
  (15949935964392884668, 762145642166990290),
  (12759948771514307735, 609716513733592232),
  (5658522775455251083, 975546421973747572),
  (15594864664589931836, 780437137578998057),
  (5097194102188124822, 624349710063198446),
  (776812934017179069, 998959536101117514),
  (4310799161955653579, 799167628880894011),
  (18206034588532164156, 639334103104715208),
  (6993562453200000710, 1022934564967544334),
  (9284198777301910891, 818347651974035467),
  (48661392357708066, 654678121579228374),
  (7456555857256153553, 1047484994526765398),
  (13343942315288743489, 837987995621412318),
  (18053851481714815437, 670390396497129854),
  (17818115926517973730, 1072624634395407767),
  (6875795111730558338, 858099707516326214),
  (9189984904126356993, 686479766013060971),
  (7325278217118350543, 1098367625620897554),
  (9549571388436590758, 878694100496718043),
  (15018354740233093252, 702955280397374434),
  (12961321140147218235, 1124728448635799095),
  (10369056912117774588, 899782758908639276),
  (4605896714952309347, 719826207126911421),
  (18437481188149425925, 1151721931403058273),
  (3681938506293809770, 921377545122446619),
  (6634899619776958139, 737102036097957295),
  (5307919695821566511, 589681628878365836),
  (1113973883830685772, 943490606205385338),
  (8269876736548369264, 754792484964308270),
  (6615901389238695411, 603833987971446616),
  (3206744593298092011, 966134380754314586),
  (17322790933606114902, 772907504603451668),
  (2790186302659160952, 618326003682761335),
  (4464298084254657523, 989321605892418136),
  (18328833726371367311, 791457284713934508),
  (3595020536871362879, 633165827771147607),
  (9441381673736090930, 1013065324433836171),
  (3863756524246962421, 810452259547068937),
  (14159051663623300906, 648361807637655149),
  (11586436217571550481, 1037378892220248239),
  (12958497788799150708, 829903113776198591),
  (6677449416297410243, 663922491020958873),
  (6994570251333946066, 1062275985633534197),
  (16663702645292887822, 849820788506827357),
  (5952264486750489611, 679856630805461886),
  (2144925549316962732, 1087770609288739018),
  (9094638068937390832, 870216487430991214),
  (10965059269891822988, 696173189944792971),
  (10165397202343096135, 1113877103911668754),
  (11821666576616387231, 891101683129335003),
  (16836030890776930431, 712881346503468002),
  (12180254166275447398, 1140610154405548804),
  (13433552147762268241, 912488123524439043),
  (18125539347693635239, 729990498819551234),
  (18189780292896818515, 583992399055640987),
  (14346253209667268331, 934387838489025580),
  (11477002567733814665, 747510270791220464),
  (12870950868928962055, 598008216632976371),
  (13214823760802518641, 956813146612762194),
  (14261207823383925236, 765450517290209755),
  (11408966258707140189, 612360413832167804),
  (7186299569705693333, 979776662131468487),
  (16817086099990285636, 783821329705174789),
  (17143017694734138832, 627057063764139831),
  (1603386608381249869, 1003291302022623731),
  (16040104545672641188, 802633041618098984),
  (16521432451280023273, 642106433294479187),
  (11676896663080395945, 1027370293271166700),
  (9341517330464316756, 821896234616933360),
  (7473213864371453404, 657516987693546688),
  (8267793368252415124, 1052027180309674701),
  (2924885879860021776, 841621744247739761),
  (17097303962855658714, 673297395398191808),
  (5219593452117592003, 1077275832637106894),
  (7865023576435983925, 861820666109685515),
  (6292018861148787140, 689456532887748412),
  (13756578992579969748, 1103130452620397459),
  (14694612008805886121, 882504362096317967),
  (4376991977560888251, 706003489677054374),
  (14381884793581241848, 1129605583483286998),
  (437461390639262508, 903684466786629599),
  (4039317927253320330, 722947573429303679),
  (6920803156544566587, 578358058743442943),
  (7383936235729396216, 925372893989508709),
  (9596497803325427296, 740298315191606967),
  (298500613176521190, 592238652153285574),
  (7856298610566254551, 947581843445256918),
  (13663736517936824287, 758065474756205534),
  (14620338029091369753, 606452379804964427),
  (8635145587578550312, 970323807687943084),
  (10597465284804750573, 776259046150354467),
  (1099274598359979812, 621007236920283574),
  (9137536986859788346, 993611579072453718),
  (14688727218971651323, 794889263257962974),
  (15440330589919231381, 635911410606370379),
  (13636482499645039241, 1017458256970192607),
  (3530488370232210746, 813966605576154086),
  (17581785955153409890, 651173284460923268),
  (5994764639793993884, 1041877255137477230),
  (4795811711835195107, 833501804109981784),
  (7525998184210066409, 666801443287985427),
  (15730945909478016578, 1066882309260776683),
  (1516710283356682293, 853505847408621347),
  (12281414670911076804, 682804677926897077),
  (4892868214490081593, 1092487484683035324),
  (7603643386333975598, 873989987746428259),
  (9772263523809090801, 699191990197142607),
  (878226379126903990, 1118707184315428172),
  (11770627547527254161, 894965747452342537),
  (2037804408537982682, 715972597961874030),
  (3260487053660772292, 1145556156738998448),
  (9987087272412438480, 916444925391198758),
  (15368367447413771430, 733155940312959006),
  (8605345143189106821, 586524752250367205),
  (13768552229102570914, 938439603600587528),
  (18393539412765877377, 750751682880470022),
  (7336133900728881255, 600601346304376018),
  (8048465426424299686, 960962154087001629),
  (10128121155881350072, 768769723269601303),
  (15481194554188900704, 615015778615681042),
  (10012516027734599833, 984025245785089668),
  (15388710451671500513, 787220196628071734),
  (16000317176079110734, 629776157302457387),
  (10843112222758935881, 1007641851683931820),
  (8674489778207148705, 806113481347145456),
  (3250243007823808641, 644890785077716365),
  (5200388812518093825, 1031825256124346184),
  (7849659864756385383, 825460204899476947),
  (17347774336030839276, 660368163919581557),
  (12999043678681701549, 1056589062271330492),
  (3020537313461540593, 845271249817064394),
  (6105778665511142797, 676216999853651515),
  (9769245864817828476, 1081947199765842424),
  (11504745506596173104, 865557759812673939),
  (12893145220018848806, 692446207850139151),
  (13250334722546337444, 1107913932560222642),
  (3221570148553249309, 886331146048178114),
  (6266604933584509770, 709064916838542491),
  (2647870264251394986, 1134503866941667986),
  (16875691470368757282, 907603093553334388),
  (2432506732069274856, 726082474842667511),
  (16703400644623061177, 580865979874134008),
  (4589348142945435944, 929385567798614414),
  (7360827329098259079, 743508454238891531),
  (2199313048536696940, 594806763391113225),
  (3518900877658715104, 951690821425781160),
  (2815120702126972083, 761352657140624928),
  (9630794191185398313, 609082125712499942),
  (651875446928996008, 974531401139999908),
  (7900197987027017452, 779625120911999926),
  (2630809574879703639, 623700096729599941),
  (15277341764033256792, 997920154767359905),
  (12221873411226605433, 798336123813887924),
  (13466847543723194670, 638668899051110339),
  (10478909625731380502, 1021870238481776543),
  (15761825330068925048, 817496190785421234),
  (16298809078797050362, 653996952628336987),
  (11320699267107639286, 1046395124205339180),
  (9056559413686111429, 837116099364271344),
  (10934596345690799466, 669692879491417075),
  (17495354153105279146, 1071508607186267320),
  (13996283322484223317, 857206885749013856),
  (7507677843245468330, 685765508599211085),
  (12012284549192749328, 1097224813758737736),
  (5920478824612289139, 877779851006990189),
  (8425731874431741635, 702223880805592151),
  (6102473369606965969, 1123558209288947442),
  (15950025139911303745, 898846567431157953)]

/-- JSH 7367-7391 `cache_values<float>::less_than`. The entries have one word; the second one is 0 here. -/
def floatLessThan : List (Nat × Nat) := [
  (2305843009213693952, 0),
  (1441151880758558720, 0),
  (1801439850948198400, 0),
  (2251799813685248000, 0),
  (1407374883553280000, 0),
  (1759218604441600000, 0),
  (2199023255552000000, 0),
  (1374389534720000000, 0),
  (1717986918400000000, 0),
  (2147483648000000000, 0),
  (1342177280000000000, 0),
  (1677721600000000000, 0),
  (2097152000000000000, 0),
  (1310720000000000000, 0),
  (1638400000000000000, 0),
  (2048000000000000000, 0),
  (1280000000000000000, 0),
  (1600000000000000000, 0),
  (2000000000000000000, 0),
  (1250000000000000000, 0),
  (1562500000000000000, 0),
  (1953125000000000000, 0),
  (1220703125000000000, 0),
  (1525878906250000000, 0),
  (1907348632812500000, 0),
  (1192092895507812500, 0),
  (1490116119384765625, 0),
  (1862645149230957031, 0),
  (1164153218269348144, 0),
  (1455191522836685180, 0),
  (1818989403545856475, 0),
  (2273736754432320594, 0),
  (1421085471520200371, 0),
  (1776356839400250464, 0),
  (2220446049250313080, 0),
  (1387778780781445675, 0),
  (1734723475976807094, 0),
  (2168404344971008868, 0),
  (1355252715606880542, 0),
  (1694065894508600678, 0),
  (2117582368135750847, 0),
  (1323488980084844279, 0),
  (1654361225106055349, 0),
  (2067951531382569187, 0),
  (1292469707114105741, 0),
  (1615587133892632177, 0),
  (2019483917365790221, 0),
  (1262177448353618888, 0)]

/-- JSH 7397-7412 `cache_values<float>::greater_than_equals`. The entries have one word; the second one is 0 here. -/
def floatGreaterEq : List (Nat × Nat) := [
  (576460752303423488, 0),
  (461168601842738790, 0),
  (368934881474191032, 0),
  (295147905179352825, 0),
  (472236648286964521, 0),
  (377789318629571617, 0),
  (302231454903657293, 0),
  (483570327845851669, 0),
  (386856262276681335, 0),
  (309485009821345068, 0),
  (495176015714152109, 0),
  (396140812571321687, 0),
  (316912650057057350, 0),
  (507060240091291760, 0),
  (405648192073033408, 0),
  (324518553658426726, 0),
  (519229685853482762, 0),
  (415383748682786210, 0),
  (332306998946228968, 0),
  (531691198313966349, 0),
  (425352958651173079, 0),
  (340282366920938463, 0),
  (544451787073501541, 0),
  (435561429658801233, 0),
  (348449143727040986, 0),
  (557518629963265578, 0),
  (446014903970612462, 0),
  (356811923176489970, 0),
  (570899077082383952, 0),
  (456719261665907161, 0)]

end JsonStruct
