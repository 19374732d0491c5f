import Verif.Lemmas.CycleCount
import Verif.Lemmas.BuckyTable

/-! # The cycles of the rows of the buckyball permutation table: certificates checked by the kernel -/

namespace Verif

/-- for every row: its cycles written one after the other (in base 64), the inverse of that list, and the cycle type -/
def buckyCycleData : List (ℕ × ℕ × ℕ) :=
  [(2198837046507322820568735172000296395497111703639031655214989481031415655662858396551046983622524691475603520,
    2198837046507322820568735172000296395497111703639031655214989481031415655662858396551046983622524691475603520, 0),
   (1197004467426366554291525271056235256583407521616485216375962657633868710101687897369627342650490718606534016,
    648562374279388323720866353074694687240387775748757160250055298809018437468939476811875470734360946797224256, 1),
   (1448636849842530888047258172224490038757109063272831003092728815421241961627672654584343488790096162586160256,
    612448867819659058746418781927337606559787350131029212027554989561508299745858646206370989780097656162132288, 1),
   (1523157356531326601786719143453413108569535653390663896761007254943399828366993944871413439506779201661922048,
    720789387198846853669761495369408848599465522958629942191267562540684603258016596854833034806141951678390592, 1),
   (1124741622684770192646152654515276943780180534828000040683690086625854934141412549619164809271165538712339328,
    684675880739117588695313924222051767918865097340901993968767253293174465534935766249328553851878661043298624, 1),
   (1350008058027154484117314825963933702961085881312118273663207062430476722786963496594705946656477699771902848,
    1383404911381652573239501316794380539913535380332088772234337474110620961418789015581729637437001352089985216, 2),
   (1672350564315331451020330616583775409994748801023806878104951530755479627375883935643384330576817244536315520,
    698112965896705327354332732911546654288488484348379271120208574549980271223956022500669608410933910180479104, 3),
   (1350608311906251073633986930703785988221923472324225721555184514116247773501672017749482176370940600356641152,
    974062159384495740316480442561839089162535053017823653880729430480376269611757213586986547501199374038622400, 2),
   (1273272959402567865957777525363681960766208506715921520437188811263278142306136241346867169486275775894024832,
    114447906058517087745985171003880363958572341462170722274157581718527031570827746929578528763573830248341824, 1),
   (1162593451104086375960865312261164748130513758202686183223521256310534763130209015134407385856167811224126592,
    1184047441106070308659098456746302251448394201747940818140268279565430055082217471684296334922261055894495552, 1),
   (1117797880642391538748661997374428946844359843676424779748225281592644927816454442300407884090235188707597760,
    189868623470203210362841285637317865471328468553955048097591366530905339315837372053579175348869369630834816, 3),
   (1855724227274092193379927118884091096725908796400956938520764510161708758411781279847977956830140552576428672,
    1419518417841381838213948884147462440519698822669229781413113610784718611442339970026466697682825590069289152, 2),
   (1866852399677323486215416105183615009470242141931164327022006592735639963024843623813681644696572297473540800,
    1972353504421946064378231229490883325811608088593676302724785183937083485684914591566832999790516838101459264, 1),
   (1977522251264914318243070227074173992224801592636529301929375480069846091382976287342831301854615726277550336,
    1574396476980298314373480380898211321046761069380661023478630224797803195109333338267536602119069934646239552, 1),
   (1422262494766696395456404819717060449497146223282018017710134423819881358078012995542573147963045075912902720,
    837447655934021107032819002948502379207539746235268161497573891380037446673147408568404172181382792317526208, 2),
   (1783487424426011254490631597992555010450026473654631819551192936680636976607207312913704073159707314394372352,
    874707907327243954123970825808078269796278128038185590007411447724993965347254694345996397263555748880998592, 2),
   (1234291880100725647327089909126974693213430571167065690391107449873832345937239561909074675250015143468439232,
    1221307692499293155750265820956089611156677397274223219258534267224763236147078068058930995974396474673635648, 1),
   (1939688620843209186906294850678278954907697197557172772574965327879692881125049780935994720618661438462981056,
    2122442706533078821243650636484112497401691478771460787370717416190419561056631281665926227200698198451052864, 1),
   (1792744720708833938042959093134617142468237023078818244811261816314699794248567914854654733178529294823232576,
    1830640482782399105432309813962422824503195082127679185244739285671290008765638201627284025691707251108372672, 2),
   (1748654925462514551012804204550019433333544034220566554509808078012695654430432322859163597525806073833592320,
    1167064820191715752914000080486653534360323684448218259250516392160110844612312745630413295030443643520958592, 3),
   (1795171893151894195024570147367659330535999153113647216936725642406900420060723904523342332981989115617133056,
    1611656728372453167947674165804752042780519649537293790279747924160675792414117856346618431121073834930250048, 1),
   (1308839966169842482919781255139834296159438103376500439093666804501772542343831477419923717944798677718513600,
    78316481709218412145435424191433775536271985769807565161757860347002552913369109468674115871137653797462336, 1),
   (1929680320947761995550869736953442061854883431416626810585829670934946098035373497444955566093381119324314432,
    1821947280840095256446165218728797388429152330139952147674665956547649834044999861830384611085193241795256512, 2),
   (1932116888001120293860524833765787968435886312901359981587090776276676510094335558466238726010045544411437184,
    1457084060715320864875229821599159187983433825690084675030256577692356575939101807133710740638144651672961152, 3),
   (2009479513133865221377797126050835492122107235668184490976270089295988013782128182933266496806799233167725120,
    1866753989242128370406757385109779792131916695525212039267652852689345492261778289276621675640381034350272704, 2),
   (1904677068931774560990635817809037429603263449637714110305236134664759015398376413804836617914540223674574016,
    1936239997962217056070316678444284388473694606283208396090666947835931299458693777801771314478945992955437376, 1),
   (1892447222154456317785583482689905479425331376773554703357075062349032950375298155068781713304438771001224256,
    937948652924766475342032871414482234639632570798345418265050224664601891814433667723373116532135513670574272, 2),
   (1154502819661781874526090159062822734563383306496069938531421744280980401544184794351305647519947017120652800,
    408861069989308536469470605628902326617565315799872877533292878667178102006436008518967818260002604303532160, 3),
   (1387841961888842022993229095822662061476060693968988625577483179920715628304577002686744546789344975262242624,
    1858078705189393932046714965481958427162822784604919989554442402647567552107303131645334641216597005042999488, 2),
   (1832423185567216324415363034933632799496650391595978783043584984465364859133390536396052469371294644772356416,
    2158574130882360809509139504031113414841558027742010397230086306525625872889948745234877503260253042627875136, 1),
   (2046766505854424493114570745440969227364772691950232068899238509369513395803402793335772448217112889948255552,
    2045108255245588374148444783735029301357103779645297001689545290735867306222471111505185384823942368058433728, 2),
   (2120804177896240370616707179087282151738377919505695611677237592380562534454836829246473435934501980435429248,
    1900126491502487406096069581888634067942719523011703431804151406928163528348142962603422380361672638806663488, 1),
   (1897132505988945676804466582522643418478793067393425663006139365271251076850230635380943505346795041778571840,
    1082421269658846998560408191814016660445152105491115346009348352854620735583581376525741813437227779673833600, 3),
   (1635001674337016660413988805492873130975493520699457506167342937032026255028155344510410301362038817371584960,
    150579330407815763346534917816326952383028974423437553525856444714236313346681557280353760173047806988951872, 1),
   (1819619124301600998005675362672152632622562617478889361246904519645189901491329517444878060420057687990417408,
    1957739686267145015661805544480303655832954044609024570425344271201690241064170056323958373513747522816073920, 2),
   (1597131788218710483591991844604553018078967085694035921600096662436601691547904778768437520176195103563037952,
    1146787189712847461567931092536514891740144179467018544324840168340008025714344767382909163860802842677518656, 1),
   (1859862864755060258099374540791315295268507343835006676896847558628807858835620151518308390688177349738896384,
    1588027425010360446890915772066471942146501132768164263185749167033705187099941377802424736245837920531398784, 3),
   (2047976917930732300523593081547197132741866629332746431507842242634918590834783030933310624856656653656602368,
    2008467010881675714352478326046533646342583171865181267011300724844851256795465406765181933907790192250233152, 1),
   (2122461052651744992625056035329817303636393089463613500484715343701969142593503852272968206032089685724336960,
    1644974897512497083600358732677296688368586809923669601618624779363561599145824856316941518135600884799004864, 2),
   (1966994610627362011770153834622300843073024485690211409156523377098280517984579612354648987980513578156734080,
    1494616027067977823807554450591502854149345071995351657780570198443462234323405160426032390664298961549156544, 2),
   (1746853588674411030108925295680376703402450731990212166629649507732178167875870581166538172841464690520103424,
    133789077285507887572058227106660920953194976713967521815620829368375359494108091234348391972878093064355968, 3),
   (1485915443556644331381442243789132109530224868882976948151961542198839849468014712665305548502868978444348992,
    1258567943892516002841433185165876970864927419555145493073962378450185265514950772360318167035854687890612544, 1),
   (1830032126819254542714587845125508874965102449217814547568017762676331510690583305989052524516641631434528960,
    2082368506638811221239596606594142021822908550181089081660810105898472670486476354618553117640081037334962368, 2),
   (2198837046506797039175839852144027974442942517550349252696540405780989698400877625958770838992331179815350336,
    2198837046506797039175839852114406684458497273436566630953389757068730244587760378754041076582970874378334272, 2),
   (2082979793049004691280808638060551964550394454539110523211084035916446402606938388329527024622693658357956992,
    1537136225585473477006872074422476261668511716531018558909405039782393199033138796044959137746233012694327616, 1),
   (2159193547066788213208087154790820204315239899079769359060909059799746610335353630635823342284773813972386560,
    1648916979767278005314282472280487102158769002386936254848973109176085788490312398569195895493910756882161984, 1),
   (1425156251568967646152473792706750180494725157305414728570515475172797868579517549689430264888860510448364224,
    1531876278461200670898721814801290210323920870311422437134127823886964643932616203975956094579697348673560768, 2),
   (1386148712642904917369280833253649962402863688934706141873809048380159286298606676161845417825836138819357888,
    1921608261917846340061256040501454121614770375126802970092614802178716877437967344319267425979077543288135872, 2),
   (2010152390843848444899983220565490835263105952935922900330432908586593500848427065635249331908376182919026112,
    2086311282183755114640509874315511812773734616926729607264429577839489519676118982344845290589670668623184192, 1),
   (2159838059662108040198051042559198404091904387768745377917844159259369762950194185206562725375583397838065792,
    2052554960527913628749273705488829549031522459800209355323013793125085558062118405615578659984670297567531136, 3),
   (2162714305508683400587432419920392014298235535896350742160224158293789719850421698039985458405951232989991104,
    2162714305508683274259373199964041027603335840644271767712652288999113989536172755642651312339900890670706816, 2),
   (1977971328835182267775884967727536177095147739033448142992063294455827871914177724697965866889930097553626688,
    1608843473163198407999809228728097166000719940429576402809130864986092877434502053339524145569450784010297536, 2),
   (1561045583324826712705423188364934538883829330499326847430755869923726498406879433900963858949100570662448832,
    42185057359919736544885677378987187111815352808540733910058997351293271137515299117898884461663677056852288, 1),
   (1709601852250938082628316579651695485322159574869719719880363054653278751429645087043224187632614298495229248,
    1365269058019849631715640536177895557516297474302574313400831742679681042455502451002910116284058373098848384, 3),
   (2195324827125907321506505374430390443133868984930373109598719047331590801735027344444208305965103595327386880,
    2194705555231684516112280266199714099469514889586741577336374144876555914270461044555958439871280572455743808, 1),
   (1713114791480736754270583630452688626404426478327139965607961356759509147196807024534400909738988331838217152,
    1959554594556690210400685729487358008924131114243461817906018744821335386438244315117912061884510364535111808, 3),
   (2197089209906650368055320975961094245559288176900641998229712296886557531551621382825067932321013666321536000,
    2193657503464853782602524808859367843419232532538925581171557246716427059122663253740397114837758658030878848, 3),
   (2124280010035149602381665193447319345284023476617274216032463287079953707321829783429501463384294434076889536,
    1756783390406383137211498746438991488950542484061515764995950478962856407302775907659278025107325820020998272, 3),
   (1750420262094383732537664871318898851479366513911814093788925265264071617954979924319376382333332828480346432,
    867944424614210825333396604977339511892173487169405027251473480958335019043697121151527938923042279416938624, 3),
   (1301295685690147839890155894116387603794415211494134235194599070684497779457306257131052625285448237337025920,
    333229658050710271941835479839493536757364372409628850141234274840694346071807761536639577361500194884567168, 3),
   (2193648386532756578135766382892389363145041918655644211644799004622458721950064117415397287868496576091689929,
    2194749648053830050992005588338737075304158749040455841087680833831007598112395848481440788964845646527365508, 4),
   (2197690163775949150931578841621947258206137100453306429763318430567671907115200558521809919067464692244301133,
    2197117204699581004174033178139133512019946672479000087138933432686094876478491695630100770350715763823759748, 4),
   (2085889929703655126837778627599370726649328151330245029181343597990601843289148463008665817026087282876249160,
    1611092596972678280337230887300447323409050642416984906354172180872070792656283425194316029815627573279359364, 4),
   (1746880459059702581805808902751286011317118627325762358567520135716361797285354487580041692092134869678286554,
    571902737943482593882855785390955902257940051957190435931336716713706156198827663703552691933816238968963460, 4),
   (1709592912929424685869272537885746457336529754018269359672221226067578569470237849819860298667419240220456728,
    1588939211371148229618230837884907797805950950328739913749256782839379530431759776568757634514127400018149764, 4),
   (2159255561951679747215569088751095087145081297129343025380779826385042843736229187437086049916134086895173891,
    1905351258517993964066307057574216153950581822681370668391117160035702634222382768546955507488368978538037636, 4),
   (787097089422844184829531280603470954660905734147299626656828648264910517076858269828700163140270089641458176,
    553535422190382317121801612115367911132496775521653229566204490064613482490574474520034838869020663857857152, 5),
   (1117251238497332487678102161784495007043383578639324801736463752765745001229717326164894148433571454049066560,
    185209976483986353502524645331045262161952221149648430552071303868822076685404480627361401537399427385286784, 6),
   (648904341564310265479936582626723735606345138606391297734677810907871491421552083188649912487784556180068544,
    332175915494594289156306263141287023798088036363319697907639239179628365004742429618868388152816251125154176, 6),
   (855209811522580606426279785006271342275102788203184862932797954742408618860685366381380252892076036940931136,
    223271649853760479776303997200473128582052461819992645149936870611898875879497963905957767953162884850163776, 5),
   (704386955893156377920815180180340592155326427084023920229354251451281491872934657116910665064711282411985216,
    553535430802615304633477793087075337149638964159037376369712471887191043014807071714943412477083236502151808, 5),
   (1672359540727658972168809080186681561385734077853625535188167660904353683371530677245204914878470076524009305,
    776092776247008066976135805132230037765015554598701561656773152923669677510315360591771223702419024405627268, 4),
   (859897888165786226052749534760434899050020291460468245549100304459127036789649027150268597484271774889692096,
    553549490841338462217489526837616773327303931946662596792379024208859766804565751312676436048062670423278208, 5),
   (1560576229099873339162805787669226869152170313097649329903906886603123281602855895324270729937684619881718784,
    332175915505167791026547937408253343703344390884716680789710663160701284741045030807895336346151676373680512, 6),
   (1488322195014596793543050232980675432013930318953916164793017118131890027285859206780964125974934087713554880,
    332175915505270963031871374646541911219217234677332650120453929792984024089608036959420673676613387645665664, 6),
   (1153373979496530797029836743842817134977960161183016428211034240572154550330723850252424146821582595490856640,
    38462452163645900421838587710009854111710029885408094436730717575698064293128818133869318097172947603579136, 6),
   (594863573643306412786632718731133178279058695468715280650211559109293804583627414172874668973517162703523136,
    553513094985038952145504407136675020084818327642130364473967781346463194391368952064225791148225006442463872, 5),
   (2120830229902145276248404744319539191117775151434884576454433787476803452526237036672616636856771556443910465,
    138719016903802888606153752320685201462617953938618547450434235290224417325483228397514208024900662359777284, 4),
   (819060889165889887288156129332240577927068423320446639182441756766301046907061351199844061413455526494806208,
    553364011983374176174581892640966719124333142142266155587191460435915059355136645903849093042033320314356352, 5),
   (576095003766336431580261065666624362474502228646492542369369640135818674456942329222675761510815592853624384,
    332175915505259561120544741673667485879218209348763277563327116195023206648789096139998157522184680984068480, 6),
   (609915427222940693092786059622004700815588276024999228479414923629764723087012543775821416286344105255607104,
    332175915496729746562904401251556601725813820216022783868219308414814944073459130625893796632308808654832000, 6),
   (1075503260015882604192432942989086727554373429909236324054725370311845825184680531645541091922109319036450944,
    332175915505184474414851730029562759176855324896713536265725568084711115244137571434647524127920681684353408, 6),
   (1227385533166802205074110231891837629265948111907564051427822561429207285135410873217093977132095232000766528,
    553345814056292154043244263167770331620390693275565536229542356554155865505577328923323884829947801071075968, 5),
   (2156397096270509119830817724118271477919401747705025789581268525608360793173545267639025341425523928673461446,
    1759005042319098894460500384448513355215472469138836660355683365308757160930846367879929250706824714779132292, 4),
   (861062002058879086854899261841600462024202033101881621992576782865699075746734765223973781175842359619172288,
    553622558148848643815155670974565604893945736105490606197664629762260417848470176368850962247732721083826816, 5),
   (1299648519596521829154096012564384054126297355419292199241539903549403698289041251917343246706274486006182976,
    149879689767592899545466269440095277107383525702465448212468730146391935464612801112603240850656322988843584, 5),
   (929284039938659562906893950556316505341596826524208106446864584057260564534171711658011580645472721269634560,
    332175915505270698218204635131880417326460621867460590626100058815012774895722977813859849450504476537962880, 6),
   (684463226757882220728273300084210133559731335420427246772632532746487972110045626806888132821815974609697024,
    332175915505292927897152327094186175738343916537975924641197534547504859176758069764901624442364548379885952, 6),
   (631013060208189853669065481042072502558605787045824109956695427393340565757901117177484788823926042784216768,
    553622006959529506402591824142493819433278236123726729570710665571340313995845667688227113869284966946914944, 5),
   (2011933433536294467470732208399654932569245905164872789834454508189772179557921212371577399168517286935299339,
    2123580074757949904854668514226608874242606481845289743317592847831234353877830942022313007937370864625418628, 4),
   (2161012101691336653775730874796165144819716527296407574171740080116975428717958364529036694360443778049664396,
    2126000829644916613752208911551981678615407889551402175406992622529392477989895638121498894292019091788300676, 4),
   (1524444100486838387261258442676831117465673709900737288089056563005115529494789525046406519368361263072204864,
    332175915502605513688922267310881684523309455333356127409089896138389511236012516618200752517915712372130176, 6),
   (1745526698893613643534495700603025126230928647309054348043419245642858356699190518754845409734344768694341056,
    553535417884182386372374075395655990531322797218588545031328842316944970600516399435684332532884798119666304, 5),
   (1233536731811026429092797975867428105769591905886151369320372535087358074263313073129453019925860652452539008,
    553621731364869917325950156649400147856998761308362806845821992578651335765139246752486398920787812528243328, 5),
   (1001519596146142081931178483449319962696478548902128039321560422536185228179163760830655752864294135547978432,
    332175915505234610622814174707471692678471400459419124183935334777239834148545329112656087667087828090143104, 6),
   (963113006717471436529338040724328760798326073998482134340733746915682011684319930696425747052838964502844224,
    332175915501537524244023580850600011341435054203713001449482051997187644354562775567059243597754508507660672, 6),
   (2121412012280620613793744048439671030562885405676731106488425338169687380165622783510097815637431564334969866,
    1898979884370537064283440496450497588965313705189370873257678554163241064030182656115553036905507520275579268, 4),
   (758410088018074773302134172386307706487486482688982549360029625986443621751189255382841495252415812871986432,
    332175915504909207402609506622662492664579295756408000596634522900657603509856335825940767116238858251452800, 6),
   (1672681096575726911343094368054867259666818064816123661489803169186199518266160827860746556126432901761125376,
    553567688764148249663757518235400921844022058035650466359902947853465113865727596113160198479951819121443456, 5),
   (1269194430397391821724457489057674578219863120523226827197468613000696719492272435869832810154488314217346816,
    76487729681426643387935471315919685110867506059335937052736402072477501425409319497182660090465375610773952, 5),
   (1161846979883032400276252826913127892799258490798750321338494706609692743614791366244894907353301347419126336,
    553535435108815235382905329806787257750812942462102060904588119634859554904865146799293918813219102240342656, 5),
   (720567643003616368084943847620016829877553317940665744944502881379764362213441825403622456772754920989825472,
    332175915504942582325340629324540362216682014915665615767546057628228138314710543272632956025450018695070080, 6),
   (2047464606398301546047000145645550587367201095692420202755962062198225595863855451014295611907054481148134535,
    2041158325173706187702694717253341286940749082874921580199404952366313404956270203992420325965326178396438916, 4),
   (1037660246334216882375113012416046229651530473832711681525263506758982380393438831894051073890979354002462016,
    332175915505321830920207388539195484762743422747978548147790645132037459977825867274849101923110727939834240, 6),
   (1159662091390574843463518546896301748010549071113765382269538346487601735696915128017639038766129869291493248,
    553327616129211435296643421563151695282452787140879242455073717344192563909290324569711141574314815408390784, 5),
   (1746082297762014077203043414501432398010338870683471278133793896867130064717123570171925297880753301611203648,
    553622833743508232891797338467659276470225210920854528922553302754949396079176597304591677196229875502498432, 5),
   (1125742430212901441234878744324014924428550265550264565240868454229340819650577674909837576384623973383302656,
    553494897062229164699236415738890871568100201553142494906443857701857847330207107263742028716335857744298624, 5),
   (1449341264050680853716528016610154852021027271639051703259863332443703100409801685810027941309998868848068416,
    332175915505321566169188078297405603105791419543686509242763184178619616251521460568945929252682830247936384, 6),
   (2124307169231562505343246267095638150871816278874039979363345359425549458776125409023440884165529427825546702,
    2051497960543233430055693544219230455012037226579958590407366074282606488469515999207778908788166432233910660, 4),
   (890285191062754645202357266384857785674016620258673210803880657569226769503191505540488223471638276374979776,
    332175915492835092444941309677273007318298060117048034214120767545755293700509205514497999912031511625908608, 6),
   (1632229998566194221163977013348682263541786942238011045116491118585617399774570287748890433265511664706065792,
    332175915505217923161448613444093738928564288971025614409723835311757704190417063988603944519323695347974528, 6),
   (1555775229304127422685379090671745158400808147716559627574948624623553406726445830774640983806203501172128896,
    296663609939926735933834795324648720578568481463122156309669198685813309918701445521378348713353832228233408, 5),
   (1484668091043424290253259227850163315587794457187018621908905007836627157870946337969919690261626674111007488,
    553382209910454894921182734245585355462271048276952449361660099645878360951423650257461836297666305977041536, 5),
   (1596680483482462346825088653284110465714160254314461564970796544844955063864305619682662294476846626054513536,
    332175915491783786389341062431573503157061531791040526986455859772476838042015932854691009202033600892551552, 6),
   (2195386715116080369759130255911724631084095584578470031607853139197496886019110068755951634825397274696966272,
    2167229898164728915193586432309299534424487584916265251340310001139580022036134877923379770677465896350912768, 4),
   (780635124005460040562612997113072690047341927635360780931809150635951798152804579258920524414608371546120832,
    553436945857548383761720864974921677215262745606375085627052397513638999626539869426677592152064832566018688, 5),
   (1190106937163962486470425854039647224384311498050233499620134536668928737827709106655310739286232832635659392,
    553454859443087225407114984554011918128318951064837217629860519297361458390121058548690413970777599441191552, 5),
   (1445096136477000814829779620018466999750746441211796484460609216568019001847287730547885943612529604366617472,
    553419032277266072394327981337093372415272049226347665682355403182731614107757157942871382226813985279525504, 5),
   (1227876848668660219383254346272386006005610433446139454752802709976535804339747086864934238399367162909957760,
    110725305168458826682360266102232892325525254601586812566032619774586515148540208163663100021234045877239936, 3),
   (1121809980886377705047583076566495722185613611001222841220296766494209178561296024111138756940559731426797952,
    553472773023369536774507868191840222928309647444864637574557513628268843908903770032496623896028446727684736, 5)]

/-- the seven cycle types -/
def buckyType : ℕ → List ℕ
  | 0 => List.replicate 60 1
  | 1 => List.replicate 12 5
  | 2 => List.replicate 20 3
  | 3 => List.replicate 30 2
  | 4 => List.replicate 4 1 ++ List.replicate 28 2
  | 5 => List.replicate 6 10
  | _ => List.replicate 10 6

/-- cut a list into pieces of the given lengths -/
def splits : List ℕ → List ℕ → List (List ℕ)
  | [], _ => []
  | n :: ns, l => l.take n :: splits ns (l.drop n)

/-- the cycles of a row according to its certificate -/
def cyclesIn (d : ℕ × ℕ × ℕ) : List (List ℕ) := splits (buckyType d.2.2) (decRow d.1)

/-- the check of one certificate -/
def cycleCheck (c : ℕ) (d : ℕ × ℕ × ℕ) : Bool :=
  (decRow d.1).map (look d.2.1) == List.range 60 && (decRow d.1).all (fun a => a.blt 60) &&
    (cyclesIn d).all fun cyc => cyc.map (look c) == cyc.drop 1 ++ cyc.take 1

set_option maxRecDepth 100000 in
theorem cycle_check : ((buckyCodes.zip buckyCycleData).all fun x => cycleCheck x.1 x.2) = true := by decide +kernel

theorem cycle_types : (buckyCycleData.map (·.2.2)).isPerm (List.replicate 1 0 ++ List.replicate 24 1 ++ List.replicate 20 2 ++
    List.replicate 16 3 ++ List.replicate 15 4 ++ List.replicate 24 5 ++ List.replicate 20 6) = true := by decide +kernel

theorem splits_flatten (ns l : List ℕ) (h : ns.sum = l.length) : (splits ns l).flatten = l := by
  induction ns generalizing l with
  | nil => rw [List.sum_nil] at h; rw [List.eq_nil_of_length_eq_zero h.symm]; rfl
  | cons n ns ih =>
    rw [List.sum_cons] at h
    rw [splits, List.flatten_cons, ih _ (by rw [List.length_drop]; omega), List.take_append_drop]

theorem splits_length (ns l : List ℕ) (h : ns.sum = l.length) : (splits ns l).map List.length = ns := by
  induction ns generalizing l with
  | nil => rfl
  | cons n ns ih =>
    rw [List.sum_cons] at h
    rw [splits, List.map_cons, ih _ (by rw [List.length_drop]; omega), List.length_take, Nat.min_eq_left (by omega)]

theorem buckyType_sum (t : ℕ) : (buckyType t).sum = 60 := by
  unfold buckyType; split <;> rfl

theorem buckyType_pos (t : ℕ) : ∀ n ∈ buckyType t, n ≠ 0 := by
  unfold buckyType; split <;> decide

theorem decRow_length (c : ℕ) : (decRow c).length = 60 := by simp [decRow]

theorem decRow_getElem? (c : ℕ) {i : ℕ} (hi : i < 60) : (decRow c)[i]? = some (look c i) := by
  unfold decRow
  rw [List.getElem?_map, List.getElem?_range hi]; rfl

theorem cyclesIn_lengths (d : ℕ × ℕ × ℕ) : (cyclesIn d).map List.length = buckyType d.2.2 :=
  splits_length _ _ (by rw [buckyType_sum, decRow_length])

theorem cyclesIn_cycles {c : ℕ} {d : ℕ × ℕ × ℕ} (h : cycleCheck c d = true) : Cycles 60 (decRow c) (cyclesIn d) := by
  unfold cycleCheck at h
  rw [Bool.and_eq_true, Bool.and_eq_true, List.all_eq_true, List.all_eq_true, beq_iff_eq] at h
  obtain ⟨⟨h1, h2⟩, h3⟩ := h
  have hfl : (cyclesIn d).flatten = decRow d.1 := splits_flatten _ _ (by rw [buckyType_sum, decRow_length])
  have hnd : (decRow d.1).Nodup := List.Nodup.of_map (look d.2.1) (by rw [h1]; exact List.nodup_range)
  have hlt : ∀ a ∈ decRow d.1, a < 60 := fun a ha => by simpa using h2 a ha
  have hperm : (decRow d.1).Perm (List.range 60) :=
    (List.subperm_of_subset hnd fun a ha => List.mem_range.2 (hlt a ha)).perm_of_length_le (by rw [decRow_length]; simp)
  have hmem : ∀ cyc ∈ cyclesIn d, ∀ a ∈ cyc, a < 60 := fun cyc hc a ha => hlt a (hfl ▸ List.mem_flatten.2 ⟨cyc, hc, ha⟩)
  refine ⟨hfl ▸ hnd, fun i => by rw [hfl, hperm.mem_iff, List.mem_range], ?_, ?_, ?_⟩
  · rintro cyc hc rfl
    have : (0 : ℕ) ∈ (cyclesIn d).map List.length := List.mem_map.2 ⟨[], hc, rfl⟩
    rw [cyclesIn_lengths] at this
    exact buckyType_pos _ 0 this rfl
  · intro cyc hc
    have h4 := beq_iff_eq.1 (h3 cyc hc)
    rw [List.isChain_iff_getElem]
    intro k hk
    have hk' : k < cyc.length := by omega
    rw [decRow_getElem? c (hmem cyc hc _ (List.getElem_mem _))]
    have h5 := congrArg (fun l => l[k]?) h4
    simp only [List.getElem?_map, List.getElem?_eq_getElem hk', Option.map_some] at h5
    rw [h5, List.getElem?_append_left (by rw [List.length_drop]; omega), List.getElem?_drop, Nat.add_comm,
      List.getElem?_eq_getElem]
  · intro cyc hc i hi
    have h4 := beq_iff_eq.1 (h3 cyc hc)
    refine ⟨look c i, ?_, decRow_getElem? c (hmem cyc hc i hi)⟩
    have : look c i ∈ cyc.map (look c) := List.mem_map.2 ⟨i, hi, rfl⟩
    rw [h4] at this
    rcases List.mem_append.1 this with h5 | h5
    · exact List.mem_of_mem_drop h5
    · exact List.mem_of_mem_take h5

end Verif
