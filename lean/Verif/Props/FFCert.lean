/-
Certificates for the powers of five in the table of fast_float, written by tools/ffcert.py (data only; they are checked in FFTable.lean).
-/
namespace C4.FF

set_option maxRecDepth 100000 in
/-- `P`, `Q`, `P'`, `Q'` of neighbouring fractions `P/Q` and `P'/Q'` for the powers -342 to 308; zeros where the table is exact. -/
def certs : List Nat := [
  15316585030972091, 8401500023913039231, 23280999321973471, 12770164887588248800,
  6662740729110873, 5847467046395389471, 16618258592862598, 14584796773745808609,
  14148675741881959, 9933919810423629087, 23280999321973471, 16345811056112958464,
  16431756636904837, 9229514097476769145, 27847161112019227, 15641405343166098522,
  16431756636904837, 14767222555962830632, 11242566956172703, 10103696884680037035,
  23350337535174222, 16787961932898838039, 11242566956172703, 8082957507744029628,
  23999240252295834, 13803597696765537701, 11458867861879907, 6590775389677379459,
  6134998129140961, 5645848462188370837, 17053113726752858, 15693451551743554945,
  19600773754540617, 14430387234725452663, 8526556863376429, 6277380620697421978,
  2768554222791047, 1630601322805606137, 28790013202926910, 16956515868761657227,
  8443721540250196, 7956986877608028629, 11488393506795353, 10826150050379236791,
  10554651925312745, 7956986877608028629, 19932115047045549, 15026509542389812336,
  18764938070192289, 11317274471216489065, 15243383486179147, 9193398567999136386,
  18764938070192289, 18107639153946382504, 11872731937636003, 11456853462242434199,
  3446103066278143, 2660314276681579322, 21066572178394650, 16262921232780920093,
  10435797644015877, 6444961378574079205, 24512675244672793, 15138588407569999532,
  10435797644015877, 10311938205718526728, 14015947322418511, 13849596131855183691,
  22661670127233071, 17914164299604305550, 7903011080809914, 6247370037969404869,
  22661670127233071, 14331331439683444440, 21209598914628928, 13413035757811127089,
  9405670805589991, 9517094545682384015, 13255999321643080, 13413035757811127089,
  9405670805589991, 7613675636545907212, 16569999152053850, 13413035757811127089,
  560335614781533, 362863103056137467, 27976943125377833, 18117357042274954970,
  32889839158140951, 17039086977319309921, 20992666747458079, 10875573847471356658,
  7435732756676795, 6163513129847953263, 16531227093452002, 13702810278045398695,
  22722138665054988, 15067588315304986265, 8265613546726001, 5481124111218159478,
  5680534666263747, 3013517663060997253, 29966998401102511, 15897461118750643406,
  16650522731345297, 14132935661314523958, 5876075299986719, 4987602821586727033,
  17383800107806442, 11804272211119013451, 11996576392127153, 8146139075227894681,
  24423361992597697, 13267525465475460959, 19036138276918408, 10341018956762565943,
  14905292854138493, 12955225579350684780, 11897586423074005, 10341018956762565943,
  26050952669446376, 18114154304372976811, 11145659815307883, 7749973840892428987,
  32563690836807970, 18114154304372976811, 24171136150031071, 13445640794463133914,
  6168600026295221, 5490236264838532521, 19723226829067715, 17554254569106582034,
  24370043417635371, 17352046892565107173, 6472956713840734, 4608898166789022911,
  26749174314959337, 15236835457246284109, 16182391784601835, 9217796333578045822,
  8008141395034522, 7298542007632161301, 13623750649278855, 12416553543487853357,
  20020353487586305, 14597084015264322602, 8813910673398058, 6426329818921573603,
  3399743738744609, 1983035714752784879, 28834264160984363, 16818731067348716964,
  13787624831770669, 12867488641063129009, 12717260211119877, 11868556282076745668,
  13520033676607971, 10094204441053226539, 12182077900794481, 9095272082066843198,
  20614539458865329, 12312831801061148515, 26371089465309197, 15751154162090609126,
  6709425975405247, 6411943079819458201, 13905113483460082, 13288587801878379423,
  6830991358567644, 5222494792303459165, 21100800991514917, 16132186019149840516,
  1707747839641911, 1044498958460691833, 28655352173688590, 17526290945868229579,
  8538739198209555, 8355991667685534664, 16816964778935884, 16457045274086224645,
  21672490017377920, 16966921396655914011, 4204241194733971, 3291409054817244929,
  22235087283280364, 13925893254746366575, 21021205973669855, 13165636219268979716,
  5558771820820091, 5570357301898546630, 16420998098844046, 16455222414735365769,
  5558771820820091, 4456285841518837304, 17746861713145012, 14227079493975947117,
  27793859104100455, 17825143366075349216, 21113030890746526, 13540501918440398953,
  23918171872081121, 12271627083592080002, 19175187274736859, 9838157730118219477,
  2371492298672131, 1946775482779088420, 21004618720080910, 17242846106762578429,
  2371492298672131, 1557420386223270736, 27441519549437203, 18021556299874213797,
  8638999111363399, 4538763491708805201, 31337534063456340, 16464135913650943061,
  18484921615975769, 15538594005378743289, 8236691313613742, 6923837976097232773,
  7183287979584449, 4830670006932050761, 20591728284034355, 13847675952194465546,
  28014550177298552, 15071543581021550393, 6704220152224953, 3606802378104965914,
  17509093860811595, 15071543581021550393, 10206038924387272, 8785192521172255541,
  25163623054102049, 17328350377520593639, 12757548655484090, 8785192521172255541,
  3013650035437957, 1660224638304884131, 31893871638710225, 17570385042344511082,
  5116852718128012, 4510211791451832695, 20749718849706299, 18289685433723755817,
  1279213179532003, 902042358290366539, 25716590297079312, 18134157879182664389,
  6396065897660015, 3608169433161466156, 26896558446781876, 15172973761953224577,
  6232029040642288, 5625011887196873859, 19516271407015499, 17615331690897981530,
  7790036300802860, 5625011887196873859, 19516271407015499, 14092265352718385224,
  31201325858219789, 18023826546810956810, 21463780482216214, 12398814659614082951,
  9986131592279708, 9229777196559065221, 11229062673660373, 10378568081779400454,
  12482664490349635, 9229777196559065221, 21215194265940081, 15686676222670772540,
  20907129179422064, 12367112441093219729, 21215194265940081, 12549340978136618032,
  13066955737138790, 12367112441093219729, 10761629676229049, 10185255612144013068,
  24019835570447753, 18186700149110190285, 8647553772399222, 6547524733076249173,
  22819360000722904, 13822204792720325287, 21618884430998055, 13095049466152498346,
  14262100000451815, 13822204792720325287, 10209204430636603, 9894315311667737124,
  13248876107998012, 10272185937965742597, 21431632753727009, 16616482394878897031,
  16561095134997515, 10272185937965742597, 14807194699728003, 9184311540716820586,
  16341857580588826, 16217922621295403753, 15245669808545381, 15130048224046481742,
  4633558281168929, 3678734283158649555, 22320410826796349, 17720908109956209286,
  4633558281168929, 2942987426526919644, 26742123963203204, 16985161253324479375,
  14926661198322723, 15168981956772574451, 6685530990800801, 6794064501329791750,
  20329709245603604, 16527794857038532801, 6685530990800801, 5435251601063833400,
  25412136557004505, 16527794857038532801, 6685530990800801, 4348201280851066720,
  30093787948555431, 15658154600868319457, 6685530990800801, 3478561024680853376,
  20898958213716373, 17398361111169641998, 2088116123381272, 1738354514379530835,
  27234494503474801, 18138150819044455276, 522029030845318, 347670902875906167,
  34367901227838791, 18311195039071598221, 1305072577113295, 695341805751812334,
  21534068783815126, 18357340164412169673, 9353143889793867, 7973358203475556115,
  22241014034871974, 15167996883021947227, 9353143889793867, 6378686562780444892,
  21357332471050914, 11652272754925346293, 29826794797023721, 16273097253657490718,
  15465698375900023, 13500602554418204063, 8469462325972807, 7393319197971431080,
  17214757388381827, 12021938714823917847, 25684219714354634, 17936594073201062711,
  15028433622779572, 8396094300569779681, 19125248417547869, 10684905244692786379,
  18785542028474465, 16792188601139559362, 7684070005926488, 6868705335640273167,
  11101472022547977, 7938786612399428956, 20706559529956087, 14807491948039702123,
  3149464134421961, 1801773577831716949, 30311647037364197, 17340957826943980232,
  13089473994579481, 11981349148706399550, 11760550655814319, 10764929411732731529,
  13089473994579481, 9585079318965119640, 17973056818412769, 13161199241474011439,
  13089473994579481, 7668063455172095712, 19193952524371091, 11244183377680987511,
  2509308682420919, 2352001397567059925, 17770505006899944, 16656481087602627121,
  2509308682420919, 1881601118053647940, 22213131258624930, 16656481087602627121,
  2509308682420919, 1505280894442918352, 29021068414491622, 17409121534824086297,
  8018923746048061, 7696610811404988645, 11510227826039588, 11047585278671619119,
  8018923746048061, 6157288649123990916, 22406708528597546, 17204873927795610035,
  14445632232970766, 8873602512688859825, 25648986497269539, 15755552083807103839,
  7222816116485383, 7098882010151087860, 15809896859494812, 15538619644774259993,
  7222816116485383, 5679105608120870288, 19762371074368515, 15538619644774259993,
  26709414364014566, 16800714010491447329, 3134888739470783, 1971902807330677941,
  5689843350104908, 5726426170895102995, 15674443697353915, 15775222458645423528,
  1422460837526227, 1145285234179020599, 22896245823246722, 18434765701599890751,
  7112304187631135, 4581140936716082396, 22082361087363291, 14223577294766967661,
  35561520938155675, 18324563746864329584, 3742514224933039, 1928487271610177053,
  13803384629925008, 11380435702440633161, 15439780128171737, 12729589859254227582,
  17254230787406260, 11380435702440633161, 22341472443134241, 14735846168379635330,
  21567788484257825, 11380435702440633161, 22341472443134241, 11788676934703708264,
  21471077989398273, 18127048877452398037, 483552474297760, 408241232263075103,
  21350189870823833, 14419990855509303409, 21954630463696033, 14828232087772378512,
  21047969574387733, 11372696191502212686, 21803520315477983, 11780937423765287789,
  10712872472466429, 9261453446107000190, 17013747135062456, 14708662633686650491,
  10712872472466429, 7409162756885600152, 21267183918828070, 14708662633686650491,
  32217897930451681, 17825855768559260290, 10673232215940232, 5905397629491570159,
  18876357660526391, 16710573970711676146, 6670770134962645, 5905397629491570159,
  6386781948872259, 4523194320040649261, 20580286777068707, 14575201877884982114,
  22708722053665889, 12866067879666424797, 13483534362970483, 7639358479170252550,
  15878393078912491, 14393939575500475307, 13483534362970483, 12222973566672404080,
  16477107757897993, 11949344862165994491, 13483534362970483, 9778378853337923264,
  29954415077970132, 17378566246958493107, 7490160530217119, 4345544743100783551,
  14977985919347359, 13903575542655722705, 7490938910579412, 6953594134050181901,
  24341659557571624, 18076454568174760065, 9363673638224265, 6953594134050181901,
  6085414889392906, 3615290913634952013, 28562123522942607, 16968503795295871565,
  15213537223482265, 14461163654539808052, 10943915186606218, 10402692431753300639,
  4870789815089578, 3703926975465263093, 22488998151425967, 17101457888041338185,
  29509960882298901, 17952364081612324553, 17332986344574956, 10544510130681798367,
  12588357148077581, 12252989239153499969, 9077875782641114, 8836031022210096765,
  20123548141892560, 15669947456096903173, 4538937891320557, 3534412408884038706,
  14600711962266837, 9095508909545992234, 18647700709434811, 11616579272541073529,
  16733269172645556, 16678375601294935691, 2023494373583987, 2016856290396065036,
  20916586465806945, 16678375601294935691, 6206811666745376, 4949160152575839167,
  25571695215865977, 16312196572581452053, 7758514583431720, 4949160152575839167,
  13933923340718397, 14221530149948309284, 4849071614644825, 4949160152575839167,
  7120284546163218, 5813802121535165357, 17125073527060907, 13982838488768191311,
  17800711365408045, 11627604243070330714, 24583176992397694, 16057979214270574167,
  15046149930803446, 7862637540082247119, 31365642619387343, 16390683348376654096,
  16608582982708764, 13886584264863180871, 21006791844299851, 17563965895465807605,
  20760728728385955, 13886584264863180871, 21006791844299851, 14051172716372646084,
  20883760286342903, 11175102792494330782, 21191339181235273, 11339691244003795995,
  5105597986001087, 4371288046092053185, 21191339181235273, 18143505990406073592,
  5105597986001087, 3497030436873642548, 22659975487043276, 15520733162750841681,
  15876189843762993, 8699395331547996413, 22100579601283544, 12110064247149419047,
  10351044943442107, 9075006831617026642, 13812862250802215, 12110064247149419047,
  25791594912009725, 18089682833273752138, 865454326840027, 607011483106478481,
  14453351251272681, 8109821541642691187, 18780622885472816, 10537867474068605111,
  12105773390588579, 10868140971814584877, 11737889303420510, 10537867474068605111,
  8987359021149417, 6454829883539554973, 20357364237401858, 14620905064597655249,
  25770753965896739, 14807093601487513814, 9583020569925173, 5506112966335353039,
  8093866697985783, 7440784508121728620, 14002242386902912, 12872422059701138233,
  8093866697985783, 5952627606497382896, 17502802983628640, 12872422059701138233,
  16845268189800103, 9911070909078361610, 21878503729535800, 12872422059701138233,
  16845268189800103, 15857713454525378576, 13674064830959875, 12872422059701138233,
  18430869869220217, 13880287321549998998, 14466865670669932, 10894995926725758655,
  27053453828086391, 16299163949987264834, 3616716417667483, 2178999185345151731,
  8354666802803588, 8053630997756786775, 18083582088337415, 17431993482761213848,
  2088666700700897, 1610726199551357355, 23580576019258371, 18184735545401420032,
  2088666700700897, 1288580959641085884, 27909219998547291, 17218299825670605619,
  10443333503504485, 10308647677128687072, 11060069289859163, 10917429531052419251,
  21811770686540987, 17224374508114377930, 16744287881377414, 13222671808047649537,
  21811770686540987, 13779499606491502344, 10024474508451274, 6332922004801898365,
  13481060909055732, 13626570802418828285, 5012237254225637, 5066337603841518692,
  3370265227263933, 2725314160483765657, 21690921043864252, 17540036254882309111,
  15533525942757862, 10048761236137499399, 14215725749196059, 9196265830339936170,
  12309044553849298, 6370254904001524931, 26524770303045357, 13727267568273473867,
  16339646289985003, 13529916016219389066, 9123163742665882, 7554364216326033737,
  5889032209326031, 3901093563222548879, 22807909356664705, 15108728432652067474,
  18952299810149746, 10043714100331001477, 27411738383819083, 14526768048102808915,
  9984505570777641, 8466013762179755822, 18698121977298362, 15854421319572125043,
  19651288850491052, 13330100778530131995, 9031338697584951, 6126247286871372697,
  4912822212622763, 2666020155706026399, 30418226850056466, 16506928680367411591,
  19768950547281038, 17164690545744819593, 14973790031448261, 13001219845841427994,
  26520459958067756, 18421432628801173675, 2544657378903871, 1767549829187607279,
  25983516873553233, 14438772368270898586, 19353401884036294, 10754485842510663851,
  17068462419660388, 15175629673422945533, 10438347430143449, 9280771232206569957,
  21335578024575485, 15175629673422945533, 6171231825228352, 4389491051080666859,
  24421193937189661, 13896300159170623170, 32135233718725101, 18285791210251290029,
  19599919073730011, 17844589203592330213, 4821274863459650, 4389491051080666859,
  11005278252729918, 8015733891653065457, 23058465411379043, 16794715993814399175,
  27513195631824795, 16031467783306130914, 25285830521601919, 14733620289178825127,
  15705542287357414, 14642160718423132833, 12921335899578819, 12046465730168521259,
  24058161450693199, 17943396546549574044, 2534282377950056, 1890154148382781937,
  28493155612105797, 17000933044975553947, 3167852972437570, 1890154148382781937,
  8311233767690538, 7934465707019890741, 16230866198784463, 15495082300551018489,
  22660092192850673, 17306284910048254433, 1882007773624328, 1437353496008472951,
  26424107740099329, 16144793521652160268, 28776617457129739, 17582147017660633219,
  6311963220396031, 6170446709459169517, 18505200733368087, 18090307402952230838,
  9575617062549048, 7488742596436058963, 21984199039431107, 17193044241400619105,
  11969521328186310, 7488742596436058963, 21984199039431107, 13754435393120495284,
  17924224538962311, 17942893471861276889, 3999859593834488, 4004025637960986321,
  21924084132796799, 17557535287857810568, 4999824492293110, 4004025637960986321,
  22211647174057897, 14230260263472899605, 12499561230732775, 8008051275921972642,
  22211647174057897, 11384208210778319684, 21177363331930443, 10854103328616552563,
  18080875663468672, 14827280593689871287, 5165055352716679, 4235620355014267601,
  14850329621300526, 9742448686760802419, 25825276763583395, 16942481420057070404,
  13075438455484223, 6862435593442295225, 24050385597767092, 12622461780079309613,
  21569210226346544, 18112410254833145793, 8493771770862321, 7132513305325473433,
  26961512782933180, 18112410254833145793, 13886074327448957, 9328492695227007905,
  33701890978666475, 18112410254833145793, 13886074327448957, 7462794156181606324,
  13867320987953089, 11924344875639512727, 7937578664184528, 6825429767687619695,
  25679922286750541, 17665488524732524250, 1984394666046132, 1365085953537523939,
  33121402284423536, 18227648680398591217, 2480493332557665, 1365085953537523939,
  14062148615783602, 12382079838719871453, 12402466662788325, 10920687628300191512,
  4345378130443539, 3060972851911846267, 22119237148128388, 15581241121704204105,
  27256699939249792, 15360139631988225889, 5529809287032097, 3116248224340840821,
  15751071764250769, 14202080938138280847, 14466706066470418, 13044022244288335805,
  21294296827538900, 15360139631988225889, 7233353033235209, 5217608897715334322,
  19790280273355143, 11420202162742180093, 16376484892820902, 9450233428119157195,
  14502547283680865, 13390170897365202991, 8188242446410451, 7560186742495325756,
  3157152418635207, 2331993661947950894, 22049182325343731, 16286370315964626959,
  29954784523207428, 17700600640201809215, 4723007476677131, 2790875330803335213,
  7488696130801857, 7080240256080723686, 15551866757093756, 14703621451253702695,
  21891613896915529, 16558063863319932588, 3887966689273439, 2940724290250740539,
  18108795214367559, 10957495927315911919, 19439833446367195, 11762897161002962156,
  8555258270183916, 8282756001640499393, 18774314330367377, 18176314470655099260,
  10694072837729895, 8282756001640499393, 18774314330367377, 14541051576524079408,
  28755242467484108, 17817171118257714789, 4040120746318741, 2503318229953432006,
  1574344935276143, 1560779639688797353, 17051913861041419, 16904986560249861342,
  8592427037269748, 6814712519365326445, 17905556435428529, 14201018999340789923,
  2148106759317437, 1362942503873065289, 27232686156936972, 17278743385044266311,
  10740533796587185, 10903540030984522312, 13070566186545588, 13268934704894923343,
  7472892249950788, 6069045083808633181, 16338207733181985, 13268934704894923343,
  9341115312438485, 6069045083808633181, 21942876920645076, 14256574814201118583,
  20312553772761023, 10557865992727353978, 27428596150806345, 14256574814201118583,
  19164155135161622, 15937539635391437509, 3558021189022661, 2958967057179011684,
  16152126945882547, 10746110604106467179, 16698119945626133, 11109363145642993698,
  32577250391636887, 17339077983184958094, 8485558222748963, 4516395766564502783,
  13277163674707453, 11306725943223875413, 9716875813012454, 8274813396430715617,
  22344964465314293, 15223033811154793619, 22994039487719907, 15665231471723672824,
  33631591645893453, 18329851722722297021, 324537511202807, 176879064227551682,
  20360179947177062, 17754691287125852465, 7327622501063699, 6389907933648755307,
  10180089973588531, 7101876514850340986, 23409101239453513, 16330754124722681107,
  26974685580109553, 15054553467709481626, 15011803436193002, 8378077171863540467,
  4867195965503263, 4346205952711084557, 18060724728469453, 16127484876609823640,
  24335979827516315, 17384823810844338228, 10599176138996442, 7571702928033049285,
  31692215186550572, 18111901180015968029, 5299588069498221, 3028681171213219714,
  6611320933067932, 6045325172973769377, 19886619414423173, 18184124196731988335,
  8264151166334915, 6045325172973769377, 19886619414423173, 14547299357385590668,
  27245370541295531, 15944250879751333490, 7037692645189522, 4118524906071872009,
  11209900538567334, 10496225257972405405, 17594231612973805, 16474099624287488036,
  5604950269283667, 4198490103188962162, 24368253089941678, 18253483887413608505,
  20104438945694587, 12047676983860646025, 12184126544970839, 7301393554965443402,
  15002414723299636, 14384425015983719443, 5102024222394951, 4891858158193314197,
  20104438945694587, 15421026539341626912, 21455859487264629, 16457628062699534381,
  9714364337454783, 5961090311065069271, 22807280028834671, 13995383668845953480,
  6441135414609811, 6324027154591757150, 14624207721722241, 14358320512372641359,
  6441135414609811, 5059221723673405720, 19890543505805254, 15623125943290992789,
  28083747089561473, 17646814632760355077, 21642611674951662, 13599437253821630501,
  13977313434936127, 14052544111792754913, 9726263231759326, 9778613303868468131,
  4557090909528232, 3665294983943408339, 19758567169870083, 15891931623793527923,
  27733476261544489, 17844958276555594013, 22037112624634199, 14179663292612185674,
  15290829039999817, 7871042307410919273, 31631578027723726, 16282536954345941141,
  22347033390672651, 18405222613160394293, 262479986931023, 216180935809641038,
  9458338154900752, 6231979565185843107, 20229076244456619, 13328682873610250366,
  11822922693625940, 6231979565185843107, 27322829860632183, 14402134037999706157,
  14778653367032425, 12463959130371686214, 15139280267019334, 12768103143436933547,
  11174146750271046, 7539204280836061195, 26674053917277289, 17997002006037805899,
  5587073375135523, 3015681712334424478, 30369157854812323, 16392072881901852691,
  8076386190311446, 6974903245556672687, 19858980685366169, 17150550453118723137,
  15986779985416669, 11045162128581492867, 11782594495054723, 8140517766049640360,
  22929123605534517, 12673265681791420939, 11782594495054723, 6512414212839712288,
  18590158842960862, 16440089111940046857, 3104664969907413, 2745590782691086370,
  24790031038654784, 17538325425016481405, 3104664969907413, 2196472626152869096,
  6197507759663696, 3507665085003296281, 27918340368864457, 15801220674618068946,
  3873442349789810, 3507665085003296281, 17847390259410951, 16162023858380339983,
  9683605874474525, 7015330170006592562, 17638940416732548, 12778606696358069299,
  24641082519240438, 14281071068744208289, 23776946853132187, 13780249611282161959,
  15184642657998211, 14080742485759389757, 14320506991889960, 13279428153820115629,
  8024389162053231, 5952822727079465554, 17900633739862450, 13279428153820115629,
  24999095194037687, 14836287624855191138, 17437669885923453, 10348785983123855599,
  7194951962023701, 6832015378288343563, 17071196539832920, 16210070324516375659,
  10122104789089172, 7689210540358074569, 15730550231940161, 11949640432437225114,
  12652630986361465, 7689210540358074569, 18261076429212454, 11097554454021395005,
  18098423286603388, 17597931971520428139, 9130538214606227, 8878043563217116004,
  13655144036257074, 10622021244877778431, 18342403000516987, 14268131763112907154,
  1070156526934312, 665960041681504197, 28787077455971125, 17914242281348035877,
  668847829333945, 665960041681504197, 18353051318361583, 18273810999925391930,
  8768561762927552, 6984562408392599371, 22961446142112931, 18289847058451781325,
  10960702203659440, 6984562408392599371, 22961446142112931, 14631877646761425060,
  6850438877287150, 6984562408392599371, 16111007264825781, 16426441826425680725,
  17126097193217875, 13969124816785198742, 16618552229021828, 13555139138962871661,
  25435373307728789, 16597355509013307658, 20773190286277285, 13555139138962871661,
  24269827552365913, 12669441133200558927, 18442098775551533, 9627224763150122930,
  12863379873284754, 10743996180570534341, 18442098775551533, 15403559621040196688,
  26153245263757307, 17475367748839096875, 6005204419454578, 4012624612301971807,
  26153245263757307, 13980294199071277500, 20583128156196876, 11002771711837610557,
  212167534255606, 181463647419411443, 21485559510133975, 18376270475286992254,
  26153245263757307, 17894776574811235200, 12811413214059146, 8765924639986206157,
  29090889149452586, 15923835269910700237, 32028533035147865, 17531849279972412314,
  1433128229410114, 1255150241908085555, 20420732346116851, 17884713048126038836,
  716564114705057, 502060096763234222, 25613804793262604, 17946292661157262791,
  15718784689481392, 8810683538569088467, 27854748805437499, 15613126690085240046,
  9824240430925870, 8810683538569088467, 19995356460696803, 17932455873281113300,
  24560601077314675, 17621367077138176934, 22277978769005739, 15983665887881533787,
  25701912231469143, 14752174137413198806, 22848634346082973, 13114472948156555659,
  12137636644388029, 11146658834227901786, 14639857609849331, 13444585872828566385,
  18832010207947369, 13835576008793615063, 14639857609849331, 10755668698262853108,
  2096076299049019, 1231962924212304782, 31359453277000780, 18431430085994944261,
  7064046108198626, 6642997035308520329, 17775802937549409, 16716284747535643060,
  17660115270496565, 13285994070617040658, 17717959104022987, 13329510934322777553,
  30629292089440270, 18434334628261281951, 28921916763211, 17406745482294758,
  16525628529529618, 15913601417420547701, 5556746037781891, 5350951793759635255,
  23435408680802968, 18053982134924401803, 5556746037781891, 4280761435007708204,
  23133302548384117, 14256998428960807645, 16972344245764524, 10460014722997213487,
  958936120589231, 945584020171432629, 18338621945437962, 18083277385480129087,
  19987051242908473, 15767003336179527123, 5064123546654106, 3994889085164598869,
  23919865374753028, 15095557321833928361, 12660308866635265, 7989778170329197738,
  14599727769591267, 14741957714304141515, 15300103948850018, 15449156929363715207,
  14599727769591267, 11793566171443313212, 11825266051266889, 9552373843642058601,
  7993479314376728, 5165664934137576207, 25037762961695967, 16180275080947795606,
  9991849142970910, 5165664934137576207, 31032872447478513, 16043619025240782209,
  9007199254740992, 7450580596923828125, 20056373416277685, 16590243248068835797,
  2251799813685248, 1490116119384765625, 25972473229775241, 17187141052578077563,
  562949953421312, 298023223876953125, 34723824020674477, 18382639375107232127,
  70368744177664, 59604644775390625, 21763370167973473, 18434291575564888266,
  17592186044416, 11920928955078125, 27206699779821541, 18435976879652131189,
  4398046511104, 2384185791015625, 34025208120561529, 18445102281792118506,
  549755813888, 476837158203125, 21267559364726109, 18446667253360385548,
  137438953472, 95367431640625, 26584446024991441, 18446665046156385942,
  34359738368, 19073486328125, 33230679065611797, 18446732511285700018,
  4294967296, 3814697265625, 20769186150155881, 18446742933303178269,
  1073741824, 762939453125, 25961483431387149, 18446743461728338076,
  268435456, 152587890625, 32451855323340865, 18446744049550071054,
  33554432, 30517578125, 20282409580765509, 18446744052894709057,
  8388608, 6103515625, 25353012000106073, 18446744070465554978,
  2097152, 1220703125, 31691265005535165, 18446744073610266787,
  262144, 244140625, 19807040628342449, 18446744073501274921,
  65536, 48828125, 24758800785684853, 18446744073692599684,
  16384, 9765625, 30948500982128457, 18446744073705945611,
  2048, 1953125, 19342813113832557, 18446744073708111763,
  512, 390625, 24178516392292385, 18446744073709400177,
  128, 78125, 30223145490365605, 18446744073709475708,
  16, 15625, 18889465931478569, 18446744073709540039,
  4, 3125, 23611832414348225, 18446744073709550781,
  1, 625, 29514790517935282, 18446744073709551249,
  1, 1000, 18446744073709551, 18446744073709550999,
  1, 800, 23058430092136939, 18446744073709551199,
  1, 640, 28823037615171174, 18446744073709551359,
  0, 0, 0, 0,
  0, 0, 0, 0,
  0, 0, 0, 0,
  0, 0, 0, 0,
  0, 0, 0, 0,
  0, 0, 0, 0,
  0, 0, 0, 0,
  0, 0, 0, 0,
  0, 0, 0, 0,
  0, 0, 0, 0,
  0, 0, 0, 0,
  0, 0, 0, 0,
  0, 0, 0, 0,
  0, 0, 0, 0,
  0, 0, 0, 0,
  0, 0, 0, 0,
  0, 0, 0, 0,
  0, 0, 0, 0,
  0, 0, 0, 0,
  0, 0, 0, 0,
  0, 0, 0, 0,
  0, 0, 0, 0,
  0, 0, 0, 0,
  0, 0, 0, 0,
  0, 0, 0, 0,
  0, 0, 0, 0,
  0, 0, 0, 0,
  0, 0, 0, 0,
  0, 0, 0, 0,
  0, 0, 0, 0,
  0, 0, 0, 0,
  0, 0, 0, 0,
  0, 0, 0, 0,
  0, 0, 0, 0,
  0, 0, 0, 0,
  0, 0, 0, 0,
  0, 0, 0, 0,
  0, 0, 0, 0,
  0, 0, 0, 0,
  0, 0, 0, 0,
  0, 0, 0, 0,
  0, 0, 0, 0,
  0, 0, 0, 0,
  0, 0, 0, 0,
  0, 0, 0, 0,
  0, 0, 0, 0,
  0, 0, 0, 0,
  0, 0, 0, 0,
  0, 0, 0, 0,
  0, 0, 0, 0,
  0, 0, 0, 0,
  0, 0, 0, 0,
  0, 0, 0, 0,
  0, 0, 0, 0,
  0, 0, 0, 0,
  0, 0, 0, 0,
  15727664864415893, 15795864386240820348, 6261172756136599, 6288322939696136407,
  5497209405138123, 4416837465187391351, 20311444970406749, 16319616828409762926,
  17446582404162464, 11214230803019257017, 24853700186796777, 15975342548308205647,
  21808228005203080, 11214230803019257017, 29215345787837393, 15023120199250415921,
  13630142503251925, 11214230803019257017, 18311231785235853, 15065607676385259860,
  12459870182755943, 8201109267742205045, 18311231785235853, 12052486141108207888,
  12459870182755943, 6560887414193764036, 26004007277233802, 13692707994656648897,
  21797873343288332, 18364671962261188759, 271066727930479, 228373266507648330,
  27247341679110415, 18364671962261188759, 271066727930479, 182698613206118664,
  29719541690951717, 16024745179204364649, 20264805673851943, 10926761603744401318,
  19752480626423921, 17040826375434085463, 3884359416325514, 3351107926405767861,
  18616048999944367, 12848324817704016335, 9710898540813785, 6702215852811535722,
  18616048999944367, 10278659854163213068, 16792635426003323, 9271880816352338989,
  19527755786914889, 17251278996909840172, 8624244409744292, 7618860460644046007,
  21683816889350962, 15324795289656681339, 10780305512180365, 7618860460644046007,
  30801466247558, 17414873673717865, 32617714383839247, 18441764134037139313,
  15400733123779, 13931898938974292, 20377722140634718, 18434211098137572445,
  16914493207659062, 12241028168157729777, 16837489542040167, 12185300572401832609,
  29638864946212806, 17159730473723180555, 12647368072934849, 7322325862592278999,
  19514068209445162, 18076597819929194109, 4694635736338759, 4348813440950649665,
  22045267393637073, 16337072443548934243, 4694635736338759, 3479050752760519732,
  30006627578257869, 17789594103053047432, 6684975782493958, 3963224639261890795,
  18288979098152207, 17348354865501397207, 3342487891246979, 3170579711409512636,
  23791550149208181, 18054337645584037567, 16712439456234895, 12682318845638050544,
  24284218787307341, 14742561378157996859, 6586442054874126, 3998523778266022813,
  13480802008560227, 13094367352142039807, 16466105137185315, 15994095113064091252,
  23370788895581087, 18160681829687952177, 746325782156272, 579945552184410289,
  29527976598370331, 18356186108167469649, 932907227695340, 579945552184410289,
  18379003806504608, 18280611310077319511, 1166134034619175, 1159891104368820578,
  6927019020864502, 5511948029005576827, 19684708214824879, 15663460475486435966,
  25428146904357569, 16186890642404612675, 8110599352196314, 5162994584393459021,
  1287912130966696, 1311761672568386049, 17700674118557393, 18028454992437063986,
  1609890163708370, 1311761672568386049, 22208366576940829, 18095696677141132126,
  23818256740649199, 15525966679767614540, 9896765665689137, 6451221667315421221,
  23818256740649199, 12420773343814091632, 18325521267273721, 9556415003268944129,
  18550284489658834, 15477799680685939459, 7789576765292991, 6499388666397096302,
  742782739768213, 495804469578349371, 27063359990173547, 18064683152334795272,
  12893797600631144, 6885246129684064903, 22073681502421223, 11787274381054732322,
  8058623500394465, 6885246129684064903, 18850232102263437, 16105540557813945754,
  18815149151256173, 12860452693120480015, 16152329951796194, 11040373560625180433,
  29597987015373329, 16184554637873372439, 10782837864117156, 5896192483376988427,
  10755429308642731, 9409928220272504895, 13478547330146445, 11792384966753976854,
  10755429308642731, 7527942576218003916, 19537041489843739, 13674370610808477833,
  23706261662585714, 13273993728866901049, 17341638444543487, 9710210881728687483,
  15473500242709769, 13862676324678472978, 7298692318959086, 6538883098464855203,
  13210769360574199, 9468400388950302313, 18246730797397715, 13077766196929710406,
  14469759719780078, 8296593472756123469, 20764711515809473, 11905959280735531562,
  14704741735745239, 13490121927769259007, 6764915827959717, 6206130035485975862,
  3969912953892761, 2913596756913313258, 22867159000738434, 16782655206341921611,
  31045064589178489, 18227664043162430089, 3731833273238228, 2191092338503059019,
  15989011453744023, 15020349702230555875, 4664791591547785, 4382184677006118038,
  15989011453744023, 12016279761784444700, 9828242352870737, 7386254617452229213,
  15989011453744023, 9613023809427555760, 16282555804524427, 9789510569809118153,
  15989011453744023, 15380838095084089216, 8177970946109764, 7866905807923607001,
  18033504190271464, 13878051637651992773, 10222463682637205, 7866905807923607001,
  19239215777772937, 11844745301399682710, 15936551317706544, 9811438965147372647,
  9278871204206347, 9140153517092119689, 9960344573566590, 9811438965147372647,
  7129521745494821, 5618349199866322405, 17771339688421654, 14004528730428422889,
  7129521745494821, 4494679359893057924, 25778935483274478, 16251868410374951851,
  9254296119206627, 9334728525625571817, 17139016489060851, 17287977827893319758,
  13196656304133739, 10649082541407556630, 9855900462317780, 7953249302267747941,
  13196656304133739, 8519266033126045304, 25516531882030964, 16472515335393793245,
  34087616668129990, 17604548797110387971, 6379132970507741, 3294503067078758649,
  18090603622794109, 14948626879833175946, 6902530614872298, 5703698828398446623,
  10770934465115129, 7120190517612959703, 17256326537180745, 11407397656796893246,
  29070107359312579, 15373574386597529870, 12392282483131533, 6553593841927154471,
  3156113707785009, 2670550790031363451, 19601766235957552, 16586066648461957439,
  21013552092538182, 14224521253127355985, 22757879943742561, 15405293950794656712,
  10506776046269091, 5689808501250942394, 30627759743683675, 16586066648461957439,
  19837281723046756, 17188196827258900035, 2515122962176823, 2179251629442203009,
  22494255672407493, 15592285248672372050, 17534935241645804, 12154645883220592043,
  22494255672407493, 12473828198937897640, 21918669052057255, 12154645883220592043,
  16510950116586721, 14649411523008171571, 10527644560765949, 9340697927715706918,
  19502602894497107, 13843014656523523118, 12023470949721142, 8534301061231058465,
  27715433074230769, 15738007827323564385, 6011735474860571, 3413720424492423386,
  7221763806066703, 6561321989957136263, 15615149762169449, 14187119416025114562,
  24690362246215439, 17945911397435644722, 5709228392059038, 4149688281196450165,
  28897842361199129, 16803256701367618685, 2854614196029519, 1659875312478580066,
  12532899657742138, 11660027902666424067, 14273070980147595, 13279002499828640528,
  2263139253232806, 1684415741668398229, 24542831384656927, 18266808580327653447,
  17363479012102277, 10338671767134178191, 29069109891122539, 17308512050931559924,
  5804073612903102, 5529436763613147623, 17655929971744451, 16820487607963231686,
  14510184032257755, 11058873527226295246, 10278983389098001, 7834082395907922199,
  29169877173916202, 17785355816517276561, 6197291855338939, 3778591184626843489,
  16588407076487459, 16182761169711334998, 7199026100103618, 7022984153651706457,
  2894933963166016, 2259313975693510125, 20892499213425061, 16305282282996923039,
  723733490791504, 451862795138702025, 29194213024808889, 18227398437562681556,
  90466686348938, 90372559027740405, 18413037372041865, 18393879271387481398,
  45233343174469, 36149023611096162, 23076671769061645, 18442129060143660581,
  226166715872345, 144596094444384648, 28691164595927577, 18343239983967116191,
  1130833579361725, 1156768755555077184, 17806627834964639, 18215015097898518827,
  14911867567837116, 12203091810687274927, 9257699671028491, 7576016788466966191,
  18639834459796395, 12203091810687274927, 20441600346906328, 13382668517185937909,
  33971034719976141, 17792074558861382687, 25552000433632910, 13382668517185937909,
  10597517251579843, 8880592240214730986, 16043724664671373, 13444448674049779339,
  26346344341647999, 17662336229447315684, 6660310479062804, 4465008182852902065,
  33492142142063636, 17962248360125018369, 1665077619765701, 893001636570580413,
  15009522296235011, 12879666692359039969, 8325388098828505, 7144013092564643304,
  25826570895126142, 17729418345005924607, 22484503796422889, 15435156905088165941,
  31067163016805992, 17061583038773279029, 4785609174429909, 2628179093034081455,
  19416976885503745, 17061583038773279029, 4785609174429909, 4205086548854530328,
  13229060276628277, 9299437776150998265, 23928045872149545, 16820346195418121312,
  13229060276628277, 7439550220920798612, 26602792271029862, 14960458640187921659,
  20468127280571233, 18416868034205568209, 36167929443327, 32543279338529774,
  24637211345002632, 17734510396657356505, 8272683664073089, 5954894504670491867,
  6159302836250658, 3546902079331471301, 29044812647864129, 16725773860019024866,
  15398257090626645, 14187608317325885204, 9570941725560029, 8818450791606492727,
  11027770566826683, 8128592138429072677, 14771396927320096, 10888026751138752877,
  25697613236820001, 15153410431774273274, 14720619798656707, 8680479060971008717,
  7796527488975412, 7355950446870362221, 19336681338444237, 18243977198009115098,
  9745659361219265, 7355950446870362221, 15438417593956531, 11652801579659147190,
  16041678600013214, 9686510762802191659, 15438417593956531, 9322241263727317752,
  17851461618183263, 17246910816042901408, 1854394573487481, 1791594352930488769,
  10489647768380129, 8107527480827851081, 19761620635817534, 15273904892549806157,
  304418725235681, 188230013821179201, 29616834449224570, 18312858886722964249,
  6974605602436642, 6900128015068875107, 12427117578694879, 12294415919568316606,
  21906421394829884, 17337996794951301835, 4469907388738279, 3537740764813551621,
  5476605348707471, 3467599358990260367, 27826142292398866, 17618562418244466851,
  17688188496083903, 17919290417432087902, 4847419123726726, 4910752227244997517,
  12479658590836996, 10114167503319833671, 12118547809316815, 9821504454489995034,
  24598206400153811, 15948537566247862964, 8998633161607566, 5834370062928029293,
  10049444909675014, 5212541013913539327, 32546027813693929, 16881281139769597913,
  20755647161892183, 17225176208094441739, 4367965112295352, 3624987847559715569,
  27307594830335211, 18130126383547212074, 5459956390369190, 3624987847559715569,
  17748764707944498, 9427043261954714171, 31398655683867473, 16677018957074145309,
  20992078729442941, 17839504898252598721, 2387754310975363, 2029163251313659242,
  3457203949129213, 2350403028862324199, 25767587351393667, 17518265120703933764,
  25375797424521373, 13801523312829614137, 11155191701132227, 6067144836736643826,
  16243050143107973, 14134970040700879434, 6588818060425527, 5733698108865378529,
  4827116041341223, 3360508772734200362, 23712719213075652, 16508159376832057601,
  16683475647879049, 9291670768920183330, 29640899016344565, 16508159376832057601,
  16683475647879049, 14866673230272293328, 16440127429230472, 14649825223048020935,
  21766900379780975, 15517217251945110507, 4110031857307618, 2929965044609604187,
  24241053726140246, 13824796016763015089, 10275079643269045, 5859930089219208374,
  18642152099555454, 17010742387780537775, 4676178016684253, 4266956903710447031,
  9321076049777727, 6804296955112215110, 16350983066599496, 11936062284977001617,
  9321076049777727, 5443437564089772088, 29759804883027097, 17379499849066773705,
  19091296282978933, 17838675067806253658, 5334254300024082, 4984262345350292135,
  22390532782332943, 16737153223281397203, 2667127150012041, 1993704938140116854,
  14265796433122369, 8531063483820583261, 27601432183182574, 16505883236381050677,
  232540170765541, 222497492504046338, 19270409043835282, 18438180713747066215,
  18936811352539281, 14495192045628309302, 8887055249355788, 6802601037806061975,
  28031142392527995, 17165161955676865358, 2221763812338947, 1360520207561212395,
  18352625424957102, 17981474080213592795, 2221763812338947, 2176832332097939832,
  21251384948781378, 16657288808630357551, 11108819061694735, 8707329328391759328,
  29213696300403168, 18318654623828125223, 241563293652023, 151473969630632221,
  12859379829097321, 12901703931938515822, 7033598148678718, 7056747844491786795,
  19839652812555546, 15923960881588530131, 3516799074339359, 2822699137796714718,
  20785509037666002, 13346509072385879011, 17583995371696795, 11290796551186858872,
  23987022703635209, 12321777274867919320, 13988374945264898, 7185620434951919351,
  21241044038753450, 17457934114783919289, 2745978664881759, 2256909525004751623,
  6683250342129242, 4394350632958684507, 27096394008667279, 17816339365936375506,
  16708125855323105, 8788701265917369014, 28585510274124434, 15036366885700182315,
  17311968534888327, 14570129154694701565, 14292755137062217, 12029093508560145852,
  22193936055049853, 14943119339499086165, 27075903575211379, 18230135355242411078,
  22193936055049853, 11954495471599268932, 17199427427726834, 9264263751542959379,
  3398555585296609, 2928945438331115697, 19208679472240822, 16554436937854027637,
  16992777926483045, 11715781753324462788, 16697114416598337, 11511934614897929479,
  16771030294069514, 9250317119603650245, 33172481200783143, 18296787100780767181,
  8385515147034757, 7400253695682920196, 18405434846633347, 16242876538433503823,
  1687777648617731, 1191576909723051353, 25049799248996475, 17685245685501167254,
  26871009637748951, 15176821260317216102, 9216060697330148, 5205256810712505345,
  19945213020555369, 18024179193426320579, 2304015174332537, 2082102724285002138,
  20538405681883467, 14848190549824275661, 11520075871662685, 8328410897140008552,
  29556735492104249, 17094376162006834216, 3505455483276147, 2027408428319149999,
  8265547743845099, 7648713836130393686, 12896412580112917, 11933990631341796839,
  20165778395267479, 14928691770543822324, 5290490080989504, 3916540893494438105,
  30729898403226467, 18199433611134245383, 1322622520247376, 783308178698887621,
  19322279166092849, 18309440911770143443, 826639075154610, 783308178698887621,
  23920663629463447, 18133429230752706547, 2066597687886525, 1566616357397775242,
  20962999144543168, 12713060719057637713, 10332988439432625, 6266465429591100968,
  15573738225568417, 15111568974968816634, 18045601985797354, 17510077230879995555,
  16377343081674350, 12713060719057637713, 9022800992898677, 7004030892351998222,
  25400144074573027, 15773673289127708748, 17628537259766603, 10947449214633925409,
  4857254259254015, 4826224074493783339, 14714184704214194, 14620184298718010651,
  10964427564934571, 8715505749136142137, 19571438963468209, 15557126698569435192,
  25259316062703018, 16062687308385625663, 4303505699266819, 2736648379773317222,
  8396367098696927, 8542953033122048509, 12770087564575983, 12993031034810211598,
  9489797215166691, 7724378026835271425, 14956947797515511, 12174456028523434514,
  9489797215166691, 6179502421468217140, 25813532658269407, 16809082844624597369,
  9489797215166691, 4943601937174573712, 29894466519045086, 15573182360330953941,
  12218515237344617, 10184154493872040546, 19040310292789432, 15870132979853847063,
  19676952901491876, 13120620594224495461, 21738670383739333, 14495376787039171262,
  31577146834485271, 16844549667321135194, 6980955707620426, 3723929073096639733,
  14043334490337529, 11986068104618252262, 15747861879694297, 13440892198502405597,
  26751224023090061, 18265860903236281014, 426131847339192, 290964818776830667,
  33356267656847537, 18220652475421725082, 532664809173990, 290964818776830667,
  17194619366729468, 15027925169632385775, 18526281389664443, 16191784444739708443,
  4298654841682367, 3005585033926477155, 23852929481404343, 16677777236135199292,
  4298654841682367, 2404468027141181724, 28741498141334837, 16076660229349903861,
  6616617981328767, 5921646457266509779, 14876656227083068, 13314097759862944013,
  17774110151641068, 12725775821730974231, 18595820283853835, 13314097759862944013,
  31926402897584636, 18286743700928939749, 9708765208033301, 5560967879197965518,
  7118018482577588, 6523271917198991435, 18553948174248031, 17003671650260905193,
  1779504620644397, 1304654383439798287, 25148565286753069, 18437820030331285866,
  8897523103221985, 5218617533759193148, 27196320614259932, 15951315210400361071,
  9946744578050486, 9334419038941991341, 14647381781958467, 13745683153247571161,
  14783749324517098, 11098924684664223269, 19484386528425079, 14627935976108687125,
  28221879919858912, 16950099075107698119, 19484386528425079, 11702348780886949700,
  17638674949911820, 16950099075107698119, 1845711578513259, 1773658974311421401,
  22048343687389775, 16950099075107698119, 19484386528425079, 14979006439535295616,
  20766365107907427, 12771642205857197494, 17561418659201557, 10800549570284794991,
  17594312063541921, 17313247252746407006, 4790972970888623, 4714438355228398497,
  805348287719013, 633986437412242303, 23149516566724102, 18223766983501351685,
  19375508144340609, 12202233064925295617, 11574758283362051, 7289506793400540674,
  17583278814228202, 17717647623043754491, 1918595838218193, 1933257463055265281,
  12628831083550487, 10180270990105926246, 11110905137320726, 8956650421163493685,
  23238898855885673, 14986551727513756281, 5555452568660363, 3582660168465397474,
  34975850699438324, 18044483053057420647, 27777262843301815, 14330640673861589896,
  16715237940357626, 13797763735191116989, 10289337493582653, 8493438635732607316,
  7391759708476893, 4881282786821627267, 27004575433940279, 17832961896738979444,
  24589927279685479, 12990724102881544498, 18405491648335986, 9723520580679062213,
  16141759003722111, 13644164807322040955, 9957323372372618, 8416639171798069299,
  16141759003722111, 10915331845857632764, 20517533717326828, 13874305094726885681,
  11012375574390404, 5957404457740729075, 25646917146658535, 13874305094726885681,
  2753093893597601, 2382961783096291630, 18691243622285921, 16178350957818730829,
  2753093893597601, 1906369426477033304, 25428874948055602, 17608128027676505807,
  13765469467988005, 7625477705908133216, 21499235151800706, 11909651082034247699,
  13011506494966092, 11532503463496609399, 9241691629856527, 8191199133714590666,
  22253198124822619, 15778962077768960052, 5988815006115004, 4246458614272350653,
  20755994373293868, 11773877939360697911, 28242013130937623, 16020336553633048564,
  14418485697810257, 13086262223687096553, 11526507268807078, 10461493655034299269,
  10090869666106898, 7326803620481698475, 18725398505910797, 13596183689586900063,
  5045434833053449, 2930721448192679390, 29154474349089921, 16934842310499422261,
  5045434833053449, 4689154317108287024, 15068149697522795, 14004120862306742871,
  20198778032623184, 15017962232550142117, 5028396132644061, 3738655035883005979,
  15127785148955653, 8998108921726461630, 20134882906087979, 11976364532629242773,
  15127785148955653, 14396974274762338608, 6911382385446617, 6577499179593365795,
  17181885839832912, 13081474438843665449, 24093268225279529, 18343473782518358085,
  21477357299791140, 13081474438843665449, 24093268225279529, 14674779026014686468,
  18861446374302751, 18381071762676231088, 3992625125218087, 3890938557505549905,
  22578651686573917, 17602884051175121107, 3992625125218087, 3112750846004439924,
  27913707859280177, 17409782291914840497, 25263513781550263, 15756855989282480230,
  7972249743968762, 7955668698345352359, 17291264037581501, 17255300884506616009,
  19930624359921905, 15911337396690704718, 14624819326767322, 11675521572809857819,
  13621517011652783, 8699639273238253451, 22940531305265522, 14651403872381462187,
  1075625679510011, 1099149869638017886, 17381594496726787, 17761734113563736571,
  9454620601854249, 7729116327337215281, 13531112806158443, 11061633176122359018,
  3708187249851076, 2425143161177857365, 25023979510164789, 16365606342281716934,
  927046812462769, 485028632235571473, 35196356741935352, 18414648042276434855,
  4635234062313845, 3880229057884571784, 18305246779683454, 15323616782109002323,
  25434864975333166, 17033547964806258887, 2258694663763941, 1512631733267971751,
  21752211142722347, 11653840732380013158, 16522842230771026, 8852183832725950081,
  6745395013668417, 5782199052813630494, 17280855281629574, 14813268139045084915,
  21183701354578436, 14527051733436277971, 8640427640814787, 5925307255618033966,
  26479626693223045, 14527051733436277971, 13936352979459396, 7645656151181682767,
  19511450203493347, 17126757852552698540, 18465945713908796, 16209035077458032037,
  19511450203493347, 13701406282042158832, 23082432142385995, 16209035077458032037,
  32386830632675909, 18194244715096886535, 892745484723162, 501525759083174641,
  18698060289256526, 16806687308619072793, 2231863711807905, 2006103036332698564,
  25393651424680241, 18259997134093734788, 21835068208270062, 15701100886902999655,
  25272759197227994, 14538453026523270059, 10917534104135031, 6280440354761199862,
  859422747239483, 791028926800348134, 19988741908801972, 18398015541241840309]

end C4.FF
