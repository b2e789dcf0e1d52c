/-!
# The table of random numbers

`TS_random::RAND_VALUES`, ms-utils/math/TS_random.cpp:32-244, in units of ten to the minus fifteenth.
-/

namespace Gunns.Random

/-- `RAND_VALUES`, ms-utils/math/TS_random.cpp:32-244. -/
def table : List Nat := [
  841233865125105, 113422673894092, 720200009178370, 212087469873950, 907657477771863, 739490318112075, 832862336421385, 324865555623546,
  651666045887396, 881887928815559, 318293225718662, 325676265172660, 572783584939316, 910720946267247, 993110549170524, 593156411079690,
  900668034330010, 234882083255798, 894928543362767, 295957052381709, 228255465393886, 330588866258040, 385460930643603, 715173878939822,
  318646905943751, 81341216806322, 784968113061041, 754920898238197, 470447223866358, 319782002363354, 203843093710020, 834430427756161,
  969348448561505, 671550455735996, 925387843977660, 158767949324101, 757062245626003, 774183936882764, 628529826411977, 73182522552087,
  811087241629139, 135870371712372, 290914649376646, 743491377914324, 503911095438525, 869046696461737, 20630799001082, 89183172443881,
  724528342485428, 868584274547175, 801741447299719, 69033916806802, 646846754243597, 360244597541168, 959480501245707, 792293461970985,
  792016334598884, 35225857282057, 451080244965851, 433735251426697, 695275896694511, 215432106051594, 294552377425134, 53475226508453,
  842159813037142, 295377973699942, 403259287588298, 736972938291729, 274339104304090, 180495666572824, 496665998362005, 530354643240571,
  303767349803820, 7289311150088, 17439287854358, 30028323177248, 894570048199967, 603917841333896, 221074023051187, 105579175520688,
  237310582539067, 223092338303104, 335718516726047, 683802477782592, 759907187661156, 655672115972266, 883809318765998, 565563520183787,
  544427303597331, 138635021168739, 873378815362230, 344554136972874, 959177972981706, 33340401714667, 496314756805077, 639860584400594,
  389482478378341, 402300937334076, 342575977789238, 983215246815234, 93403943814337, 39775681914761, 911626544781029, 994660514639691,
  13036611257121, 646843678783625, 581143287243322, 296847068239003, 311315273866057, 494288131594658, 967387821292505, 739168886793777,
  69456473924219, 710688541876152, 419990723254159, 347817542962730, 338340667774901, 84714323980733, 100256599718705, 63985739136114,
  890090146800503, 640068297274411, 471526408568025, 974180294433609, 954114195657894, 534534136299044, 605788253480569, 213589738123119,
  476766834035516, 4808351164683, 780374820344150, 531607220182195, 580747896572575, 702186526730657, 81110272556543, 642385696992278,
  726748113287613, 789269918110222, 392567312344909, 27340718545019, 907312327995896, 477012387476862, 936411354690790, 36668718094006,
  415614090394229, 184447432402521, 310653688618913, 304064007708803, 194221766898409, 945892860880122, 511154928011820, 215475694043562,
  957494402769953, 170512215467170, 647500867955387, 565733294002712, 638562234817073, 703528719954193, 522710936376825, 692668430507183,
  6766789825633, 35263613332063, 639463374391198, 77816054923459, 390095531009138, 843675258569419, 886721097398549, 122705132933334,
  13071996625512, 853040945716202, 958015937823802, 663116102572531, 220306744100526, 475364242913201, 659591034986079, 459452951094136,
  635949803981930, 412417090963572, 832649420946837, 359212254174054, 907839040039107, 68479582434520, 63522540498524, 708308404078707,
  571196863427758, 577538239303976, 6270738784223, 963943323586136, 27730586472898, 876756913261488, 31572610372677, 575552818132564,
  834542932221666, 602676464710385, 682109500048682, 639071657322347, 737727541243658, 468899253988639, 854823589557782, 380879877600819,
  345899224979803, 663454583846033, 398857785388827, 166897767223418, 58067270321771, 875323139363900, 963414780097082, 455894615268335,
  373283785535023, 238032694440335, 422158040804789, 340760146500543, 31671684235334, 191735276253894, 261182055575773, 335467272903770,
  345295051811263, 889840002870187, 964068994158879, 719797737430781, 300632879137993, 868675040546805, 659649009117857, 256470741238445,
  729378340300173, 154097026679665, 177794755902141, 485011342214420, 543463622685522, 458725968608633, 542995453346521, 130950581515208,
  888638079864904, 469477934762836, 774075939785689, 576053821016103, 114183601224795, 849148108856753, 133464281680062, 174427841324359,
  879437689203769, 425721165258437, 7826180430129, 267542537301779, 812524105189368, 230287164449692, 67578739020973, 338129139970988,
  371571136871353, 604311933275312, 302561394404620, 75892701279372, 344412191770971, 376610202016309, 975793724879622, 583892823196948,
  864085193024948, 518570403801277, 770392058184370, 121500192210078, 564394312445074, 88178542675450, 521143633872271, 317428834503517,
  267743266653270, 16492710914462, 45144672971218, 437257189769298, 791589364875108, 872486542444676, 224983555031940, 837168821133673,
  916570391505957, 914745725458488, 271225312491879, 438872474478558, 890352310379967, 173496277304366, 179637531749904, 371853167889640,
  740575506351888, 708065781276673, 808084028307349, 782940012402833, 795015958836302, 228098911000416, 408212858717889, 464103886391968,
  664446126203984, 70533362915739, 917100102175027, 991137909237295, 27479601791128, 693076615687460, 380307515384629, 933878391282633,
  126233220100403, 418613811954856, 974366070702672, 713661814108491, 299125392688438, 671462954487652, 295501695247367, 88637803215533,
  474772900110111, 417498284019530, 460934510221705, 937402210431173, 815435210708529, 418282690923661, 537668681936339, 978985863970593,
  850171400001273, 508883149595931, 155030225636438, 935272900387645, 965003267163411, 800135051598772, 529537796508521, 496775556588545,
  649812522111461, 423906736075878, 192123189801350, 462591644842178, 472792783286423, 47404329525306, 603905294090509, 694122020388022,
  285143977729604, 974662947468460, 111886498052627, 740568795474246, 67741767736151, 320892127929255, 646883778041229, 721161662833765,
  647997519467026, 225041244411841, 492055285023525, 424516739789397, 734823881648481, 496679977979511, 581806143512949, 762701970990747,
  72367354296147, 14503879938274, 795066268416122, 364486210281029, 584327289601788, 648333461023867, 616918487939984, 836696729995310,
  616713404655457, 742301889695227, 399668606230989, 889511336805299, 851076470222324, 745277456473559, 652311651967466, 243617293890566,
  373076105024666, 141592971514910, 699524302501231, 180692861322314, 352148074656725, 124803987797350, 466370654990897, 134448033524677,
  875062017934397, 155268810922280, 692282397067174, 376994850113988, 707591740414500, 638061783509329, 105958012863994, 524813500698656,
  401780066313222, 227988799568266, 82827609032392, 391847832826897, 295191328739747, 220102702965960, 347163398750126, 347869534045458,
  876063820673153, 42961594881489, 259625176433474, 203936844132841, 62985514523461, 526913717156276, 901060760021210, 709687503287569,
  596565711311996, 85444837808609, 847534199478105, 933599756564945, 678585686022416, 645459497347474, 675979762338102, 724079143488780,
  656822616932914, 505952285137028, 286333674564958, 900924445362762, 343566707102582, 642443579621613, 686947915470228, 299902585335076,
  404162269085646, 882324857171625, 486816263291985, 441305643180385, 923915370833129, 894440955249593, 865980975097045, 493569208309054,
  552002511452884, 351297254906967, 846257238183171, 760829974431545, 222307859919965, 673623339971527, 12067034607753, 225914327660575,
  202269080560654, 750244987895712, 106258730171248, 436919842381030, 924169506411999, 850639049196616, 330561137525365, 441735406871885,
  852949953638017, 852644209517166, 569661002838984, 405439107446000, 489960864419118, 405309354653582, 47245604684576, 900772931985557,
  399587872205302, 469690741272643, 483952376991510, 868063654983416, 640372943133116, 102129023522139, 80214336281642, 617717375978828,
  56228955043479, 367068008519709, 959683200344443, 368363222805783, 766194611787796, 144992260960862, 474123613908887, 563660826999694,
  161980058765039, 378376594278961, 912245381157845, 955941543914378, 383853055536747, 960849513765425, 333113568834960, 72459183400496,
  54879675153642, 67643261514604, 568062145495787, 809898254461587, 850201040506363, 667343185981736, 187316516879946, 582903312752023,
  787200657185167, 350162381539121, 939310730667785, 294337627943605, 498812301782891, 336499365512282, 2967521082609, 385947216069326,
  586456689285114, 136229866882786, 107892154483125, 357810298446566, 556660966482013, 469897208036855, 139803392579779, 24340007454156,
  112574787577614, 891061928821728, 938816101988778, 410562257049605, 760125270113349, 625052199000493, 5417235894128, 347200123593211,
  286461762385443, 293595491675660, 282936523901299, 779251283733174, 70895214099437, 808567812200636, 334688446018845, 861270970432088,
  866017702966929, 739879876840860, 564517095452175, 342844022903591, 167508117854595, 965114322956651, 370132297975942, 282460478600115,
  170983625808731, 988937102025375, 34711088752374, 547669182764366, 801419641822577, 373528175288811, 946699830703437, 923464484978467,
  742646787548438, 928890003822744, 9387472411617, 282453236170113, 203888496616855, 161224161740392, 197852856712416, 566636834992096,
  687308230204508, 375903718406335, 201750944834203, 876334115164354, 51277012564241, 516972827259451, 517424163641408, 574232645565644,
  929839677177370, 33463599625974, 938358659856021, 447570226620883, 542485998477787, 935002550482750, 574539727298543, 682541842339560,
  320469899568707, 990247698035091, 666539758443832, 581878944300115, 801622564205900, 604544664733112, 850775106577203, 178929719841108,
  456629610620439, 195694959722459, 837857621721923, 225357893388718, 222545051481575, 491790642961860, 497949334094301, 70479745510965,
  484347160439938, 432819576468319, 894601077307016, 117141247959808, 970276451902464, 248959982069209, 205181096680462, 262480788864195,
  18568549305200, 21875227801501, 422395385336131, 40069618029519, 718655100092292, 356752462452278, 640439618146047, 202865363564342,
  115710894577205, 222420934587717, 61848850920796, 278468917356804, 447660458274186, 818429407430813, 10812786407768, 394582881592214,
  132537116529420, 523612030781806, 64683010336011, 771854738704860, 309308277675882, 417626002803445, 626357259228826, 129666121909395,
  930243730545044, 632600436452776, 738796837860718, 996391499415040, 999586980789900, 283557646907866, 649505541659892, 388660114491358,
  377847199095413, 167842994444072, 485004873014987, 12736425967887, 728055898565799, 643444865010679, 121104876743630, 241508361417800,
  900329030118883, 251361521892250, 910107845906168, 950085635064170, 60227900976315, 819890967803076, 483350234804675, 810518057551235,
  92945039970800, 261933894827962, 657184080686420, 661037762183696, 950611369218677, 452158709289506, 662657892797142, 212157180532813,
  662713193101808, 899412749800831, 752764562610537, 453553417231888, 751306880498305, 642470354679972, 469018693082035, 795911698136479,
  140256616054103, 888389328727499, 206512069795281, 29946951195597, 841864125570282, 166545639745891, 739469393622130, 424107129219919,
  790216005174443, 488465050235391, 759334853384644, 91267901705578, 213334567146376, 628960153320804, 462487918790430, 570484219584614,
  731589578557760, 23337349295616, 88624757481738, 287693195743486, 628542834427208, 564087707083672, 245057682739571, 104156607761979,
  198498111916706, 66370094660669, 822286319918931, 187284957850352, 479749060934410, 851684230146930, 625858365790919, 253099192166701,
  542820806847885, 716216413769871, 161060663172975, 827857062919065, 303849091753364, 846703286981210, 410435369471088, 371832445263863,
  20025536650791, 259419176494703, 383586544310674, 870519449235871, 478168435860425, 591382171958685, 446817245800048, 155831268988550,
  665337746497244, 261920656310394, 375574470730498, 521289241733030, 6376682315021, 811041727662087, 35273164510726, 281628228956833,
  834839625982568, 730787766864523, 845857869368047, 668080270756036, 873030421556905, 670529206516221, 447221548995003, 248197393957525,
  595056843478233, 578983570681885, 523358468664810, 143090480007231, 377249893732369, 857485684566200, 689211283810437, 831510487943888,
  817008953075856, 857905837940052, 610792511608452, 869480926543474, 996594450669363, 618752471636981, 670701698400080, 106876585166901,
  508720573270693, 597300498513505, 655819211155176, 284103581216186, 293235738063231, 296343389665708, 616143780527636, 423694604542106,
  602596959332004, 194339619949460, 714561697561294, 771772313863039, 771553069818765, 455593779217452, 449799202848226, 221076374873519,
  808686851989478, 287575814872980, 614764593308792, 826061183819547, 476752548711374, 336957057239488, 616319011896, 102730686543509,
  430207254830748, 190257409587502, 771185284480453, 203334535239264, 845184041885659, 811190963024274, 22429496748372, 432664801599458,
  900495140813291, 472502196906135, 244362909579650, 479943801648915, 935089322505519, 633938223356381, 38417373318225, 206076982198283,
  213423307985067, 544823094503954, 76888662530109, 934043988119811, 915883740410209, 497429633280262, 473736980464309, 504118405515328,
  866404107306153, 884037563577294, 73992539197206, 242143384646624, 61493362067267, 998421315802261, 646875778213143, 137315567350015,
  380275738425553, 623357970733196, 46051051467657, 475598754361272, 572410289198160, 273693402996287, 607600495452061, 204094026237726,
  911755332723260, 999999692672089, 462158366572112, 418016025796533, 826823228737339, 393692889949307, 384737578919157, 512526672100648,
  665787829086185, 100327395834029, 93421027995646, 743550813291222, 327937343390658, 879614261910319, 26056149043142, 487475764239207,
  174231860786676, 742120646173134, 184533716877922, 544781679520384, 362187656573951, 156721619190648, 976053157122806, 690750398905948,
  226158377714455, 127218868816271, 248371836496517, 936437701340765, 1383220311254, 273154215654358, 537702484522015, 524545805528760,
  491045082919300, 283521667588502, 891938047017902, 807729727821425, 686113932635635, 437406869372353, 743934475351125, 908455147873610,
  185374563559890, 958668063892717, 98483253037557, 160408247495070, 737123666564003, 886302625993267, 942603712901473, 245602661510929,
  553649298148230, 986554331844673, 337013027863577, 198454377241433, 498332936782390, 11663341196253, 827492184937000, 225175606785342,
  630775696132332, 233467282028869, 736630280269310, 2180168172344, 933268490713090, 908173425355926, 107848555315286, 477272029500455,
  296834729844704, 926550238626078, 614325630478561, 219209361355752, 195863176835701, 980493516894057, 706741903675720, 586506534134969,
  735472797125119, 447081397287548, 431848116219044, 84239522693678, 818613085197285, 698467577574775, 52674568025395, 964763239026070,
  877866110997275, 27968134265393, 304316294379532, 433973226230592, 500097467098385, 852783036651090, 961609798483551, 602060874458402,
  785528894513845, 314187185140327, 829820451326668, 171233803499490, 149114947300404, 870131491683424, 980584514094517, 438907074276358,
  279365194030106, 662530306726, 220482670702040, 929418970365077, 818150855600834, 129299830412492, 170302825747058, 192354595055804,
  752016233978793, 44228021288290, 501926612574607, 606389786582440, 486676283879206, 907179025700316, 639592516003177, 695669413777068,
  971208725357428, 463100242428482, 648309368407354, 48449564957991, 888449067017064, 394330653594807, 869479810120538, 305752877844498,
  317830225452781, 631131646921858, 238992003491148, 689188182586804, 810512625379488, 719015884213150, 857030159793794, 670944422716275,
  819854645524174, 776885190280154, 380902827484533, 911694033304229, 908920493209735, 86391469230875, 763248471543193, 55551426252350,
  424790475750342, 732963992282748, 500215382780880, 127927132882178, 70724210236221, 646553727332503, 835967991501093, 275212989654392,
  414015246555209, 977039430523291, 981948679778725, 889987581642345, 699588428717107, 562067032791674, 446842632954940, 818112610606477,
  999858257360756, 203013212652877, 747536180540919, 278470106422, 972499808529392, 186768029583618, 719860118755584, 731710123131052,
  385550436563790, 863132804865018, 126497856341302, 705608135554940, 430601647356525, 794034423539415, 146392816910520, 734605777775869,
  647533245384693, 729720054427162, 57403989601880, 257899844087660, 365037560, 216757838148624, 142203463241458, 482754964614287,
  665995753486639, 831526182591915, 366150169866160, 349014332750812, 204819082049653, 386067685438320, 473696492146701, 788243237184361,
  3241286380216, 507204963592812, 690556236542761, 436760772485286, 793313589878380, 813417783705518, 426450953353196, 205865088617429,
  524308270774782, 811576090753078, 765165898250416, 278984096599743, 523222995223478, 838527421932668, 151009558700025, 641441475367174,
  796589868608862, 401813190430403, 790451769484207, 515440268209204, 175868627149612, 55870506912469, 89316131547093, 892611739225686,
  761594870127738, 279467975720763, 895012037362903, 477471692953259, 681858027353883, 777135615237057, 427495962241665, 309635181212798,
  447270624572411, 889458614634350, 340529637644067, 968762682517991, 80840532900765, 190995091106743, 248704052297398, 991407681722194]

end Gunns.Random
