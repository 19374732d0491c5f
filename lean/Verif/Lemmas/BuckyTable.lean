import Verif.Lemmas.Perm
import Mathlib.Data.List.GetD
import Verif.Model.Bucky

/-! # The buckyball permutation table: certificates checked by the kernel

Rows are coded as numbers in base 64, so that the kernel composes them with its big-number arithmetic. Every row is a product
of rows 1 and 65; the table is closed under right multiplication by these two; hence it is a group.
The relabelling and the shells show which labelling of the molecule the table belongs to. -/

namespace Verif

/-- the rows of the table as numbers in base 64 -/
def buckyCodes : List ℕ :=
  [2198837046507322820568735172000296395497111703639031655214989481031415655662858396551046983622524691475603520,
   1966992780494612625656756612581802215598301196911532878060995437798218473407404767511783600456838621004349846,
   739662987164405262131691242996906919243152573952653940071268806983502014703547640335050607224064967720221234,
   120465099911865756640477095706760013091830213103832239517543879561406615807119148592182288046647748863671916,
   944139972332442434663504313479280903842727548160237095778526402749186017563927768314348200585961935773726926,
   1255826196638687408264554065884991706620449599854222353839700408682943489612099037626639100522230518032783022,
   330417256100941423297021130686712425025249433566430282201603033914508640684475497605317604695343137162227002,
   306401457851750064443389840620274930624245425024999602793718115544301005789097911288315083132142445708639270,
   1166572922747059956078801020411369909862002128129414966091426215225788404631843646714291414563634159155480330,
   1676794220675225641552102945227351445179170489105587792640484910603115806752593831257974946362925139386463058,
   76295084887690230356900955542553083312047706111038477493521070220538466776259211118352773387138636827573687,
   451545046947540926662674094678736051978888473170505928199232793441432310249143161026606648000173658103831530,
   1606523519507750106572420154990390205423818080649593929913494886163734840505943424906755212556413170070406155,
   1903987645755517141751341419926937097201308266480379883386672471155611766101254443873068492974625191602434500,
   860736735926415300772052110255170019475874686022714636813156659721995086242853357426432508781049196380002657,
   269149885536194475951285071513932719776051659452998462359509366407380198493778442099195811612355996959825124,
   1375424128061409832877620906679539297595130221055879914488813788860804119796117985993489974124923113963922907,
   2005526784052788416961936513701426217240205145908989207402220958179853357758749433697576640990718661685710991,
   1747327986398710842199102752646254282578233535305089555306648952466780770631688692705413446363730207416550161,
   605603063858713559953559109705681149596412061906876910429370519865793372893951840680279438398981794268838616,
   1532549094520440772549573696610695382670862537228094633927445112178169665963956533762920053126372795336954824,
   1447624124192355528063269036953051345134745864882538095239504361409188612950472746024429645682998833908384863,
   1181869967356482505782260745446786642845232757421383695311484806119992095837456122955280561151776552727234093,
   785588538012237063308261708923246679961859978285072637844256825754793606892756619619639663566314080851310882,
   1131032797467302213441794313801987576400885074751911015385987386063796229707483824990231075371279403594872521,
   2079519689123607429627802530212693399067484202382714288613544000421888792495459302407485551333537510988734739,
   1070698572548530849886883828699496276897458261620130503837386674352880599638093655068308192699236684995659889,
   185791308147242893410215615538345313885166129733997392235696600055518683142884699717828865099333247430270456,
   716255544234307689758193557424803798160126532937704925094092190169699073439747903476600937094639430399834781,
   1830030845734938713693656099097482618437962671736168429547242567545414203067319161729171061943938056733070021,
   1855721563900309423816346103060107275600037149018658634647972619202109250432913144627683391375152767961191061,
   1630512447518983606440708338924762178703756482348302588933439914520108585581287278542557192009352035100370078,
   522652745279522575038822503930129761677873813284808251606921537576299223895915666444562678565210453837564841,
   9830104351799650976850501940054700433212359090790876998576760799001888840027423998906716280190360010034855,
   821146583399810865769124024850325640006372842118662000289475091069443418605419962385050174628653413752228256,
   628992293414772394508165309973246305492113834478312088203852668180200001353050316870420631070570982828317172,
   885489311507130352651984567608319385681856854865815544209255751934256224507773268761280613834825592949340208,
   1339283884614645033997268868995536066942254154846874065200394628330576701444228741002609475585053733453170012,
   1016994671426084945080073644435689115400692081011913540130377560384739463263973881707315523263397688406267789,
   570063072039156229281506182352517125512834059073233088392739559163237261845089717328832556855251871605582426,
   48255311797478555999489565385415203881653010004403436272866743299783331950408542797241761254337137030668008,
   222058274308213263422030582344993912673125078120149076758080133263560763136090549090970889459064496672968057,
   1482590881343021763797760946320414510484896187396743704243858272544648051566250765043303427951761790626026787,
   2126027146681389437330802926555706084601636842266072605952961752807287030934538580839979367486954333477556417,
   1315095166958956633489377413511925770914275860026776758255239667675751365589509998001182338384747945096984134,
   1054792179437364127027326736702968641076320668097583597689079397526623853836031950340209352790349851352459212,
   486512359764554617872303147614922499969353245056301377466335836333933164308053260072936078604988947250752363,
   958299071418987093255582617151457880665159460530180335526423169538851458815812992488471021494200131432663219,
   1929678210915304811003321503151938253461559964692214479418122335307801516831162736092735299817065652765385303,
   1792743853014379435847243443721321980838452791578002664300087717388442714867683687026251002224032572291940866,
   2161585469850882151917971060184162657194606188996195265259616266221793121019423127861586762963388400325115907,
   1414996080442718696283412712289971570385460471557235478718367236518014427739542020529423635238089633855837593,
   367713907790688814629155234580243745909753112041939420331307093246556381340144468964370719061801717473705147,
   663995302162521784764489305332524315309118795379286377451723532449330130561656741646153521336657873801227061,
   1711178644091475261572503735086700019198624544208718388978637646864053453892984701276702918706382947249599380,
   1218018881030944423710344839444218491698348578614127907786326126333638189225628467009860687183102762258425711,
   2043378612299064352418757933767343208386987485246019280762801204122156954500742514421944187742946324971823440,
   1570982976669777756811258090844921976634716709770516677707521521276388036502572246805759874972041172170646727,
   417108127533895172061475402764271739688397267173786719751416054387751219599098527801347414232725190028487781,
   147975602177943761146398052643640918955065658038875378635810814512740590032598017981591975823163811856100918,
   1819617012113949567735889900904923458500682153007852371805306244496869358900477220835813212978164635780047575,
   2086438120827046182232044770934494244110127918234321065358318221730938876156480749329507253572464704989954306,
   1091515740711019567868981216029645405939015248670116453059886123226682675199242160848485796199095365989656652,
   192755234737354406616302687560957254530537417512910398978353496433225707091144657374617560794775110612889067,
   701273471448533928148893703100454271927652148664768530534426047493511171563043640744140535812156936406878899,
   1645530496243134310087666630149061455022359813201086972042166996625829227830072018707902938552260527496443014,
   525528857565982619997010654447656759116726959152055528780181194927126648588126561658317341963697834145815464,
   1729787377789297730149299324811985792954092316034732582815129227991844492671152855125858406281833419345593,
   821702320133892803259315626537967811616261156376730087003941385767624554910491120483264292674078122538555811,
   1868993311711425698168125169293701773049586400530681717553928801102503926177332893025757287345414468682142337,
   343698102945059873473841825495106402521457781801110188266801926841131235330930395929462574617230512641207589,
   294850253886447552513412916055567179824285473821036428767107604274213362925668937696390342016034157890087990,
   1144609285140047067657004431361569676209761557343219822585159473811482560299378318264833929613113615051548463,
   1676193549097456621835482788361808894036455552386354077519679038501397759220934175550762456449248436141728592,
   1277234237563991168925359997535964736485441438038126115170092150656263157664492980398063545542538013873350279,
   110661597114386047903899138126516943937931072734333397661694467193718201535026812605915646955012389054676603,
   921038544498922253595556797873771402954835430370569738948131349865124259752515686096222620483124542377208053,
   2188451769907305779204204565057813894418474820853448626623220390184279279786946059964584278994510627148968020,
   1977970609701321265377221060656646556083649201493684445146934063169815385373919852960549888195770742955590019,
   754116340414694930633057183189409835636541270691019917227773316522473969484984167670879366707359153338849817,
   1108495505275045593478669458147160809365777411846600055324767317004581724193053111810859907169032403791529709,
   1519860240311542480604038073354767957991590468541953996877329061507048596777829064758170394524892887810421730,
   1461485904725371455990856000253868178059364725968340949020268602857785333680716509390465116722703603727397961,
   1202140357834312583891632648469008966149333314894939046490863376431943220969078377587145565084399375585187336,
   786761884357914609565167019485563793769299174603382235104255154487519057272196283456584245577912743778421023,
   2151200053165359731438846054286982954068021191298322300308882733100039448530527950256379174657805442210889745,
   1413230741597932541534680752379498813810629804772684819375014734760767456180781999230980822257447100462790040,
   379256012654153761455770247422967731438440361286709354612540511197175790729506392587132743059646484215422116,
   677848263633357089895381900752719912224086058885080361923397196200567280548507030267717853229770926728817435,
   1711760557874253862292581880328397095374372321504049056428332377848553893214576759717628149238947462676779919,
   2050879797656001924374409725188088198393377542536063465546741912919618949608366899392009723797868794289336644,
   1558285443452139514949352736861729782369819965838541314388026575320209849408891360301966131325940891527517409,
   406667416974356059420221472213799678632199017136558121070653017006842741404304279046796887976852074315889783,
   157743269195726019905948050081700042598358582989130728387371570466426852735711715753633910573050813026885162,
   1239400604853042072523650850468721283857384605134122410033628754006997225931931092533168650655911597221693259,
   906897632332751015710758866810181065506784574850178306841194350470139671595509286455251666236513887656695821,
   1341013107643231627412624417788992707421828986011832821155772164354871085504311563143288586305030470573614426,
   996159865171800309701373066707648172981253196429450363945522147450017384501083878938475279285661430915176372,
   555044603296116120635836074896705016301703018549294852719432081818760261635498598204627949424021714524338800,
   641716843556015403457966403944224096454903722671774112887959710489512001865107854782537920554226806589098460,
   82066627402699750008273076250311279653312852836476776310687924279048636779505291554772194279864699275398569,
   450380239765346691073312011350798914203869365038164492946022466592362144882811545845308778964293395684723687,
   1592096343412965578925145121698859699650789266311075972146334781373259294281870572490176650398285814180463648,
   1892444840831370382063182954489282278670962731938450744926644364902780994738751315259809840194055322890457557,
   859571368706625938076887390535409876504380975592126905168257654308738143594867145947296025573676935646652766,
   593487724323654424441073532925793242760278211914426516945176832328370991124374689033707686071293419246750449,
   259336443591055326665914372331831652645852860393671817245161755884585562619838089300778999703906595036175608,
   1377117235070419062903523052761719114431149490241649386622120135150598292460423502149392110421233690827699677,
   2013628221002740590271751429669314969501330987744027192042474090176814796089324266352976482493194825429422213,
   1749057489463742053667411524457708517585105632544473239325766883615436393297324061418893280705270144842359571,
   1783485867730607675288912368815383367572028588974680979177697793336749221322249138356213694907024547279585814,
   1033411155397217888317941469243270029070616316693408189889868815884076418934370899790611197333903358886590450,
   487640911043441661996630553352477151021828010728737298585581820315254381709837884392344790808593609348037484,
   980845322554960423009585582148762024612244285630507103590627849452309286209116612349888892218851816028076174,
   1941802789397968680974595690573702771599077634586142701475047201133690502945958441048028339136679025267974720,
   1497044234490775059118014849408374123075361491728469519247048370730164275219557940959547387864905072754623754,
   2117380052022203525961050017531483224550424660257806827607755798238635084367648260548127249785077800258531538,
   1292567253731423863506874691591686908803147629984755055846695643323426923808573583684477897800035839015802478,
   36723425736818038516660445775010596739146099134854359799185652987369735193558386761529821126136567509249786,
   233018745460045542809766760662951018468337662201850571963100689663477685068620308977958848351060058849607014]

/-- row `k` times row 1 is row number `buckyTimes1[k]` -/
def buckyTimes1 : List ℕ :=
  [1, 2, 3, 4, 0, 10, 11, 12, 13, 14, 15, 16, 17, 18, 19, 20, 21, 22, 23, 24, 25, 26, 27, 28, 29, 5, 6, 7, 8, 9,
   35, 36, 37, 38, 39, 40, 41, 42, 43, 44, 45, 46, 47, 48, 49, 50, 51, 52, 53, 54, 30, 31, 32, 33, 34, 59, 55, 56, 57, 58,
   64, 60, 61, 62, 63, 85, 86, 87, 88, 89, 65, 66, 67, 68, 69, 70, 71, 72, 73, 74, 75, 76, 77, 78, 79, 80, 81, 82, 83, 84,
   110, 111, 112, 113, 114, 90, 91, 92, 93, 94, 95, 96, 97, 98, 99, 100, 101, 102, 103, 104, 105, 106, 107, 108, 109, 116, 117, 118, 119, 115]

/-- row `k` times row 65 is row number `buckyTimes65[k]` -/
def buckyTimes65 : List ℕ :=
  [65, 66, 67, 68, 69, 71, 72, 73, 74, 70, 64, 60, 61, 62, 63, 89, 85, 86, 87, 88, 90, 91, 92, 93, 94, 96, 97, 98, 99, 95,
   101, 102, 103, 104, 100, 75, 76, 77, 78, 79, 84, 80, 81, 82, 83, 114, 110, 111, 112, 113, 115, 116, 117, 118, 119, 106, 107, 108, 109, 105,
   11, 12, 13, 14, 10, 0, 1, 2, 3, 4, 9, 5, 6, 7, 8, 35, 36, 37, 38, 39, 41, 42, 43, 44, 40, 16, 17, 18, 19, 15,
   20, 21, 22, 23, 24, 29, 25, 26, 27, 28, 34, 30, 31, 32, 33, 59, 55, 56, 57, 58, 46, 47, 48, 49, 45, 50, 51, 52, 53, 54]

/-- row `k` times row `buckyInv[k]` is the identity -/
def buckyInv : List ℕ :=
  [0, 4, 3, 2, 1, 11, 6, 26, 21, 16, 10, 5, 25, 20, 15, 14, 9, 29, 24, 19, 13, 8, 28, 23, 18, 12, 7, 27, 22, 17,
   42, 37, 32, 52, 47, 41, 36, 31, 51, 46, 40, 35, 30, 50, 45, 44, 39, 34, 54, 49, 43, 38, 33, 53, 48, 55, 56, 57, 58, 59,
   60, 61, 62, 63, 64, 65, 70, 75, 80, 85, 66, 71, 76, 81, 86, 67, 72, 77, 82, 87, 68, 73, 78, 83, 88, 69, 74, 79, 84, 89,
   90, 95, 100, 105, 110, 91, 96, 101, 106, 111, 92, 97, 102, 107, 112, 93, 98, 103, 108, 113, 94, 99, 104, 109, 114, 116, 115, 119, 118, 117]

/-- row `k` of the table is the product of the generators `1` (false) and `65` (true) along word `k` -/
def buckyWords : List (List Bool) := [
  [],[false],[false,false],[false,false,false],[false,false,false,false],[false,true,false,false,false,false,true],
  [true,false,true,false,false,false],[false,true,false,true,false,false,false],
  [false,false,true,false,true,false,false,false],[true,false,false,false,false,true],
  [false,true,false,false,false,false,true,false],[true,false,true,false,false,false,false],
  [false,true,false,true,false,false,false,false],[false,false,true,false,true,false,false,false,false],
  [true,false,false,false,false,true,false],[false,false,false,false,true,false,true],[true,false,true],
  [false,true,false,true],[false,false,true,false,true],[false,false,false,true,false,true],
  [false,false,false,false,true,false,true,false],[true,false,true,false],[false,true,false,true,false],
  [false,false,true,false,true,false],[false,false,false,true,false,true,false],
  [false,false,false,false,true,false,true,false,false],[true,false,true,false,false],
  [false,true,false,true,false,false],[false,false,true,false,true,false,false],
  [false,false,false,true,false,true,false,false],[true,false,false,false,true,false,false,false,false],
  [true,false,false,true,false,false,false],[false,true,false,false,true,false,false,false],
  [false,false,true,false,false,true,false,false,false],[true,false,false,true,false,true,false,false,true],
  [true,false,false,false,true],[false,true,false,false,false,true],[false,false,true,false,false,false,true],
  [false,false,false,true,false,false,false,true],[false,false,false,false,true,false,false,false,true],
  [true,false,false,false,true,false],[true,false,false,true],[false,true,false,false,true],
  [false,false,true,false,false,true],[false,false,false,true,false,false,true],
  [true,false,false,false,true,false,false],[true,false,false,true,false],[false,true,false,false,true,false],
  [false,false,true,false,false,true,false],[false,false,false,true,false,false,true,false],
  [true,false,false,false,true,false,false,false],[true,false,false,true,false,false],
  [false,true,false,false,true,false,false],[false,false,true,false,false,true,false,false],
  [false,false,false,true,false,false,true,false,false],[true,false,true,false,true,false,false,true],
  [false,true,false,true,false,true,false,false,true],[false,false,true,false,true,false,true,false,false,true],
  [true,false,false,true,false,true,false,true,false],[true,false,false,true,false,true,false,true],
  [true,false,true,false,false,false,false,true],[false,true,false,true,false,false,false,false,true],
  [true,false,false,false,false,true,false,true,false],[true,false,false,false,false,true,false,true],
  [false,true,false,false,false,false,true,false,true],[true],[false,true],[false,false,true],
  [false,false,false,true],[false,false,false,false,true],[true,false,false,false,false],
  [false,true,false,false,false,false],[false,false,true,false,false,false,false],
  [false,false,false,true,false,false,false,false],[false,false,false,false,true,false,false,false,false],
  [true,false,false,false],[false,true,false,false,false],[false,false,true,false,false,false],
  [false,false,false,true,false,false,false],[false,false,false,false,true,false,false,false],[true,false,false],
  [false,true,false,false],[false,false,true,false,false],[false,false,false,true,false,false],
  [false,false,false,false,true,false,false],[true,false],[false,true,false],[false,false,true,false],
  [false,false,false,true,false],[false,false,false,false,true,false],
  [false,false,false,false,true,false,true,false,true],[true,false,true,false,true],
  [false,true,false,true,false,true],[false,false,true,false,true,false,true],
  [false,false,false,true,false,true,false,true],[false,false,false,true,false,true,false,false,true],
  [true,false,true,false,true,false,false,false,false],[true,false,true,false,false,true],
  [false,true,false,true,false,false,true],[false,false,true,false,true,false,false,true],
  [true,false,false,true,false,true,false,false],[true,false,true,false,true,false,false,false],
  [true,false,false,true,false,false,false,true],[false,true,false,false,true,false,false,false,true],
  [false,false,true,false,false,true,false,false,false,true],[true,false,false,true,false,true,false],
  [true,false,true,false,true,false,false],[false,true,false,true,false,true,false,false],
  [false,false,true,false,true,false,true,false,false],[true,false,false,false,true,false,false,true,false],
  [true,false,false,true,false,true],[true,false,true,false,true,false],[false,true,false,true,false,true,false],
  [false,false,true,false,true,false,true,false],[true,false,false,false,true,false,false,true],
  [true,false,false,false,true,false,false,false,true],[true,false,false,true,false,false,true],
  [false,true,false,false,true,false,false,true],[false,false,true,false,false,true,false,false,true],
  [false,false,false,true,false,false,true,false,false,true]]

/-- the stored site list of a `Structure` (sorted positions), in units of 1e-9 -/
def buckySortedNano : List (ℕ × ℕ × ℕ) := [
  (99999964, 499998778, 419764280), (100000232, 499999255, 580236733), (151582479, 365030527, 336432606),
  (151583701, 365031481, 663567841), (151583105, 634967566, 336432666), (151583552, 634968042, 663568199),
  (201426923, 235125303, 416664362), (201427758, 235126287, 583335936), (201427281, 764873147, 416663945),
  (201427370, 764873266, 583336055), (235126078, 416663080, 201428205), (235127062, 416664541, 798573077),
  (235125899, 583335221, 201427996), (235125959, 583335817, 798573613), (336432606, 151583344, 365031660),
  (336433470, 151583284, 634968758), (336431384, 848417222, 365031004), (336431921, 848416328, 634968340),
  (365031660, 336431861, 151583761), (365032524, 336432785, 848416924), (365030885, 663567305, 151583701),
  (365031362, 663567960, 848417580), (416664481, 201427490, 235126466), (416665584, 201427370, 764873743),
  (416663140, 798572958, 235125542), (416663557, 798572123, 764873743), (419764578, 100000054, 500000536),
  (419763178, 899999738, 499999255), (500000238, 419763476, 100000173), (500000298, 419764161, 899999857),
  (499999702, 580235839, 100000113), (499999762, 580236614, 899999857), (580236912, 100000232, 500000715),
  (580235481, 899999976, 499999464), (583336413, 201427877, 235126287), (583336890, 201427042, 764874458),
  (583334446, 798572659, 235126227), (583335519, 798572540, 764873505), (634968638, 336432099, 151582420),
  (634969115, 336432666, 848416328), (634967446, 663567185, 151583105), (634968340, 663568139, 848416209),
  (663568079, 151583701, 365031660), (663568556, 151582778, 634968996), (663566530, 848416686, 365031302),
  (663567424, 848416686, 634968221), (764874101, 416664243, 201426357), (764874160, 416664839, 798572004),
  (764873028, 583335459, 201426923), (764873922, 583336949, 798571825), (798572659, 235126823, 416663945),
  (798572719, 235126823, 583336055), (798572183, 764873743, 416664064), (798573017, 764874756, 583335578),
  (848416388, 365032017, 336431742), (848416805, 365032464, 663567305), (848416328, 634968519, 336432159),
  (848417521, 634969473, 663567424), (899999738, 500000775, 419763237), (900000036, 500001252, 580235660)]

/-- relabelling of the sites under which the table consists of symmetries of the molecule -/
def buckyRelabel : List ℕ :=
  [0, 3, 1, 6, 2, 7, 10, 14, 4, 5, 15, 11, 12, 26, 13, 9, 23, 8, 22, 18, 19, 32, 20, 21, 16, 28, 34, 17, 35, 29,
   42, 24, 43, 30, 25, 31, 27, 38, 39, 51, 40, 50, 41, 36, 37, 33, 46, 47, 55, 48, 44, 45, 54, 49, 58, 52, 57, 53, 59, 56]

/-- for every row but the first: a bonded pair whose images are not bonded -/
def buckyBroken : List (ℕ × ℕ) :=
  [(0, 1), (0, 1), (0, 1), (0, 1), (0, 1), (0, 1), (0, 1), (0, 1), (0, 1), (0, 1), (0, 1), (0, 1),
   (0, 1), (0, 1), (0, 1), (0, 1), (0, 1), (0, 1), (0, 1), (0, 1), (0, 1), (0, 1), (0, 1), (0, 1),
   (0, 1), (0, 1), (0, 1), (0, 1), (0, 1), (0, 1), (0, 1), (0, 1), (0, 1), (0, 1), (0, 1), (0, 1),
   (0, 1), (0, 1), (0, 1), (0, 1), (0, 2), (0, 1), (0, 4), (0, 1), (0, 1), (0, 1), (0, 1), (0, 1),
   (0, 1), (0, 1), (0, 1), (0, 1), (0, 1), (0, 1), (0, 1), (0, 1), (0, 1), (0, 1), (0, 1), (0, 1),
   (0, 1), (0, 1), (0, 1), (0, 1), (0, 1), (0, 1), (0, 1), (0, 1), (0, 1), (0, 1), (0, 1), (0, 1),
   (0, 1), (0, 1), (0, 4), (0, 1), (0, 1), (0, 1), (0, 1), (0, 1), (0, 1), (0, 2), (0, 1), (0, 1),
   (0, 1), (0, 1), (0, 1), (0, 1), (0, 1), (0, 1), (0, 1), (0, 1), (0, 1), (0, 1), (0, 1), (0, 1),
   (0, 1), (0, 1), (0, 1), (0, 1), (0, 2), (0, 1), (0, 1), (0, 1), (0, 1), (0, 1), (0, 1), (0, 1),
   (0, 1), (0, 1), (0, 1), (0, 1), (0, 1), (0, 1), (0, 1), (0, 1), (0, 1), (2, 6), (0, 1)]

/-- lower ends of the 23 shells of squared distances (units of 1e-18) -/
def buckyShells : List ℕ :=
  [25751360030224134, 27779294244390341, 72862186942359725, 80317189192335554, 107017364492540076, 168699551159835521,
   179882848772453108, 223217966826051077, 268208775389660571, 280595599112354022, 308411288263991210, 356581856039539738,
   384361221287289769, 396737593979350478, 441787252178558936, 485047853534154605, 496281072354270417, 557928763122374674,
   584574446155884971, 592363784081537985, 637213720388175754, 639429229778681253, 664993202558854109]

/-- entry `i` of a coded row -/
def look (c i : ℕ) : ℕ := (c >>> (6 * i)) % 64

/-- the row behind a code -/
def decRow (c : ℕ) : List ℕ := (List.range 60).map (look c)

set_option maxRecDepth 100000 in
theorem bucky_codes : buckyPermTable = buckyCodes.map decRow := by decide +kernel

set_option maxRecDepth 100000 in
theorem bucky_codes_nodup : buckyCodes.Nodup := by decide +kernel

/-- the code of a row -/
def codeRow (p : List ℕ) : ℕ := p.foldr (fun x acc => x + 64 * acc) 0

set_option maxRecDepth 100000 in
theorem bucky_code_dec : (buckyCodes.all fun c => codeRow (decRow c) == c) = true := by decide +kernel

/-- `decRow c` times `decRow d`, in coded form -/
def comp (c d : ℕ) : List ℕ := (decRow d).map (look c)

set_option maxRecDepth 100000 in
theorem bucky_times1 : (buckyCodes.map fun c => comp c (buckyCodes.getD 1 0)) = buckyTimes1.map fun k => decRow (buckyCodes.getD k 0) := by
  decide +kernel

set_option maxRecDepth 100000 in
theorem bucky_times65 : (buckyCodes.map fun c => comp c (buckyCodes.getD 65 0)) = buckyTimes65.map fun k => decRow (buckyCodes.getD k 0) := by
  decide +kernel

set_option maxRecDepth 100000 in
theorem bucky_inv : (buckyCodes.zip buckyInv).all (fun cj => comp cj.1 (buckyCodes.getD cj.2 0) == List.range 60) = true := by
  decide +kernel

set_option maxRecDepth 100000 in
theorem bucky_small : (buckyCodes.all fun c => (decRow c).all (· < 60)) = true ∧ buckyCodes.length = 120 ∧ buckyInv.length = 120 ∧
    (buckyInv.all (· < 120)) = true ∧ (buckyTimes1.all (· < 120)) = true ∧ (buckyTimes65.all (· < 120)) = true ∧
    buckyTimes1.length = 120 ∧ buckyTimes65.length = 120 ∧ decRow (buckyCodes.getD 0 0) = List.range 60 := by decide +kernel

/-- the row number reached by a word -/
def wordIdx (w : List Bool) : ℕ := w.foldl (fun k b => (if b then buckyTimes65 else buckyTimes1).getD k 0) 0

set_option maxRecDepth 100000 in
theorem bucky_words : buckyWords.map wordIdx = List.range 120 := by decide +kernel

/-- row `k` of the table -/
def buckyRow (k : ℕ) : List ℕ := decRow (buckyCodes.getD k 0)

theorem mem_table_iff (p : List ℕ) : p ∈ buckyPermTable ↔ ∃ k < 120, p = buckyRow k := by
  rw [bucky_codes, List.mem_map]
  have hl := bucky_small.2.1
  constructor
  · rintro ⟨c, hc, rfl⟩
    obtain ⟨k, hk, rfl⟩ := List.getElem_of_mem hc
    exact ⟨k, by omega, by rw [buckyRow, List.getD_eq_getElem _ _ hk]⟩
  · rintro ⟨k, hk, rfl⟩
    exact ⟨_, List.getElem_mem (by omega : k < buckyCodes.length), by rw [buckyRow, List.getD_eq_getElem _ _ (by omega)]⟩

theorem buckyRow_length (k : ℕ) : (buckyRow k).length = 60 := by simp [buckyRow, decRow]

theorem buckyRow_lt {k : ℕ} (hk : k < 120) : ∀ i ∈ buckyRow k, i < 60 := by
  intro i hi
  have h := bucky_small.1
  rw [List.all_eq_true] at h
  have := h _ (List.getElem_mem (by rw [bucky_small.2.1]; exact hk : k < buckyCodes.length))
  rw [List.all_eq_true] at this
  rw [buckyRow, List.getD_eq_getElem _ _ (by rw [bucky_small.2.1]; exact hk)] at hi
  simpa using this i hi

/-- composing rows is composing codes -/
theorem gather_row (c : ℕ) {q : List ℕ} (hq : ∀ i ∈ q, i < 60) : gather (decRow c) q = q.map (look c) := by
  unfold gather
  have : q.filterMap (fun i => (decRow c)[i]?) = q.filterMap (fun i => some (look c i)) := by
    apply List.filterMap_congr
    intro i hi
    simp [decRow, hq i hi]
  rw [this]
  simp

theorem row_times1 {k : ℕ} (hk : k < 120) : gather (buckyRow k) (buckyRow 1) = buckyRow (buckyTimes1.getD k 0) ∧ buckyTimes1.getD k 0 < 120 := by
  have hl := bucky_small.2.1
  have hl' := bucky_small.2.2.2.2.2.2.1
  have h := congrArg (fun l => l[k]?) bucky_times1
  simp only [List.getElem?_map, List.getElem?_eq_getElem (show k < buckyCodes.length by omega),
    List.getElem?_eq_getElem (show k < buckyTimes1.length by omega), Option.map_some, Option.some.injEq] at h
  have hall := bucky_small.2.2.2.2.1
  rw [List.all_eq_true] at hall
  refine ⟨?_, ?_⟩
  · rw [buckyRow, gather_row _ (buckyRow_lt (by omega)), List.getD_eq_getElem _ _ (by omega), List.getD_eq_getElem _ _ (by omega)]
    exact h
  · rw [List.getD_eq_getElem _ _ (by omega)]
    simpa using hall _ (List.getElem_mem (by omega))

theorem row_times65 {k : ℕ} (hk : k < 120) : gather (buckyRow k) (buckyRow 65) = buckyRow (buckyTimes65.getD k 0) ∧ buckyTimes65.getD k 0 < 120 := by
  have hl := bucky_small.2.1
  have hl' := bucky_small.2.2.2.2.2.2.2.1
  have h := congrArg (fun l => l[k]?) bucky_times65
  simp only [List.getElem?_map, List.getElem?_eq_getElem (show k < buckyCodes.length by omega),
    List.getElem?_eq_getElem (show k < buckyTimes65.length by omega), Option.map_some, Option.some.injEq] at h
  have hall := bucky_small.2.2.2.2.2.1
  rw [List.all_eq_true] at hall
  refine ⟨?_, ?_⟩
  · rw [buckyRow, gather_row _ (buckyRow_lt (by omega)), List.getD_eq_getElem _ _ (by omega), List.getD_eq_getElem _ _ (by omega)]
    exact h
  · rw [List.getD_eq_getElem _ _ (by omega)]
    simpa using hall _ (List.getElem_mem (by omega))

/-- the two generators -/
def buckyGen (b : Bool) : List ℕ := if b then buckyRow 65 else buckyRow 1

theorem row_gen {k : ℕ} (hk : k < 120) (b : Bool) : gather (buckyRow k) (buckyGen b) = buckyRow ((if b then buckyTimes65 else buckyTimes1).getD k 0) ∧
    (if b then buckyTimes65 else buckyTimes1).getD k 0 < 120 := by
  cases b
  · exact row_times1 hk
  · exact row_times65 hk

theorem buckyGen_lt (b : Bool) : ∀ i ∈ buckyGen b, i < 60 := by
  cases b
  · exact buckyRow_lt (k := 1) (by omega)
  · exact buckyRow_lt (k := 65) (by omega)

theorem row_zero : buckyRow 0 = List.range 60 := bucky_small.2.2.2.2.2.2.2.2

/-- rows have right inverses in the table -/
theorem row_inv {k : ℕ} (hk : k < 120) : ∃ j < 120, gather (buckyRow k) (buckyRow j) = List.range 60 := by
  have hl := bucky_small.2.1
  have hl' := bucky_small.2.2.1
  have hall := bucky_small.2.2.2.1
  rw [List.all_eq_true] at hall
  have h := bucky_inv
  rw [List.all_eq_true] at h
  have hj := hall _ (List.getElem_mem (show k < buckyInv.length by omega))
  rw [decide_eq_true_iff] at hj
  have := h (buckyCodes[k]'(by omega), buckyInv[k]'(by omega)) (by
    rw [List.mem_iff_getElem]
    exact ⟨k, by rw [List.length_zip]; omega, by rw [List.getElem_zip]⟩)
  refine ⟨_, hj, ?_⟩
  rw [buckyRow, gather_row _ (buckyRow_lt hj), List.getD_eq_getElem _ _ (by omega : k < _)]
  exact beq_iff_eq.1 this

theorem row_isPerm {k : ℕ} (hk : k < 120) : IsPerm 60 (buckyRow k) := by
  obtain ⟨j, hj, h⟩ := row_inv hk
  have hsub : List.range 60 ⊆ buckyRow k := by
    rw [← h]
    intro x hx
    obtain ⟨i, _, hi⟩ := List.mem_filterMap.1 hx
    exact List.mem_of_getElem? hi
  have : (List.range 60).Subperm (buckyRow k) := List.nodup_range.subperm hsub
  exact (this.perm_of_length_le (by rw [buckyRow_length, List.length_range])).symm

/-- multiplying row `k` along a word -/
theorem row_word (w : List Bool) : ∀ k < 120,
    w.foldl (fun p b => gather p (buckyGen b)) (buckyRow k) =
      buckyRow (w.foldl (fun k b => (if b then buckyTimes65 else buckyTimes1).getD k 0) k) ∧
    w.foldl (fun k b => (if b then buckyTimes65 else buckyTimes1).getD k 0) k < 120 := by
  induction w with
  | nil => intro k hk; exact ⟨rfl, hk⟩
  | cons b w ih =>
    intro k hk
    obtain ⟨h1, h2⟩ := row_gen hk b
    rw [List.foldl_cons, List.foldl_cons, h1]
    exact ih _ h2

/-- multiplying by a product of generators, step by step -/
theorem gather_word (w : List Bool) : ∀ (p q : List ℕ), p.length = 60 → q.length = 60 → (∀ i ∈ q, i < 60) →
    gather p (w.foldl (fun p b => gather p (buckyGen b)) q) = w.foldl (fun p b => gather p (buckyGen b)) (gather p q) := by
  induction w with
  | nil => intros; rfl
  | cons b w ih =>
    intro p q hp hq hlt
    rw [List.foldl_cons, List.foldl_cons, gather_gather (by rw [hp]; exact hlt) (by rw [hq]; exact buckyGen_lt b)]
    refine ih p _ hp ?_ ?_
    · rw [gather_length (by rw [hq]; exact buckyGen_lt b)]
      cases b
      · exact buckyRow_length 1
      · exact buckyRow_length 65
    · intro i hi
      obtain ⟨j, _, hj⟩ := List.mem_filterMap.1 hi
      exact hlt i (List.mem_of_getElem? hj)

theorem row_mul {j k : ℕ} (hj : j < 120) (hk : k < 120) : ∃ m < 120, gather (buckyRow j) (buckyRow k) = buckyRow m := by
  -- row k is a word
  have hw : ∃ w, wordIdx w = k := by
    have : k ∈ buckyWords.map wordIdx := by rw [bucky_words]; exact List.mem_range.2 hk
    obtain ⟨w, _, h⟩ := List.mem_map.1 this
    exact ⟨w, h⟩
  obtain ⟨w, rfl⟩ := hw
  have h0 := row_word w 0 (by omega)
  rw [show buckyRow (wordIdx w) = _ from h0.1.symm, gather_word w _ _ (buckyRow_length _) (buckyRow_length _) (buckyRow_lt (by omega)), row_zero,
    show gather (buckyRow j) (List.range 60) = buckyRow j by rw [← buckyRow_length j]; exact gather_range _]
  exact ⟨_, (row_word w j hj).2, (row_word w j hj).1⟩

/-- the table is a group of permutations of the 60 sites -/
theorem bucky_group : PermGroup 60 buckyPermTable := by
  refine ⟨?_, ?_, ?_, ?_⟩
  · intro p hp
    obtain ⟨k, hk, rfl⟩ := (mem_table_iff p).1 hp
    exact row_isPerm hk
  · exact (mem_table_iff _).2 ⟨0, by omega, row_zero.symm⟩
  · intro p hp q hq
    obtain ⟨j, hj, rfl⟩ := (mem_table_iff p).1 hp
    obtain ⟨k, hk, rfl⟩ := (mem_table_iff q).1 hq
    obtain ⟨m, hm, h⟩ := row_mul hj hk
    exact (mem_table_iff _).2 ⟨m, hm, h⟩
  · intro p hp
    obtain ⟨j, hj, rfl⟩ := (mem_table_iff p).1 hp
    obtain ⟨k, hk, h⟩ := row_inv hj
    exact ⟨_, (mem_table_iff _).2 ⟨k, hk, rfl⟩, h⟩

end Verif
