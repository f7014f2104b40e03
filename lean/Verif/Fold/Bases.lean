import Mathlib.Data.Nat.Notation
/-!
# Bases of the lattices of `EightDigits`

For the exponent `e` of ten and the exponent `j` of two, two pairs `(u, p)`, `(v, q)` of whole numbers with `u q - v p = 1` or `-1`
such that `p / u` and `q / v` are near `10^e * 2^(150 - j)`.  Nothing is assumed about the table; `EightDigits` checks it.
-/

set_option autoImplicit false

namespace Kami.FoldFile

structure Basis where
  j : Nat
  u : Int
  p : Int
  v : Int
  q : Int

/-- the bases for the exponents from -60 on -/
def bases : List (List Basis) := [
    [],
    [],
    [],
    [],
    [],
    [],
    [],
    [⟨0, 1, 0, 70064923, 1⟩],
    [⟨0, 21019477, 3, 70064923, 10⟩],
    [⟨0, 39236357, 56, 30127917, 43⟩],
    [⟨0, 38325513, 547, 39236357, 560⟩],
    [⟨0, 7756187, 1107, 154668318, 22075⟩],
    [⟨0, 20120544, 28717, 72725989, 103798⟩],
    [⟨0, 20581361, 293747, 51683811, 737656⟩],
    [⟨0, 39242831, 5600924, 42353076, 6044833⟩],
    [⟨0, 19932440, 28448529, 60419369, 86233405⟩, ⟨1, 40486929, 28892438, 39864880, 28448529⟩, ⟨2, 40486929, 14446219,
    39242831, 14002310⟩, ⟨3, 39242831, 7001155, 41731027, 7445064⟩, ⟨4, 41731027, 3722532, 36754635, 3278623⟩],
    [⟨2, 7972976, 28448529, 56432881, 201359248⟩, ⟨3, 56432881, 100679624, 15945952, 28448529⟩, ⟨4, 56432881, 50339812,
    31891904, 28448529⟩, ⟨5, 56432881, 25169906, 7350927, 3278623⟩, ⟨6, 56432881, 12584953, 14701854, 3278623⟩, ⟨7, 41731027,
    4653165, 29403708, 3278623⟩],
    [⟨5, 17664957, 78788341, 56432881, 251699060⟩, ⟨6, 56432881, 125849530, 35329914, 78788341⟩, ⟨7, 56432881, 62924765,
    14226947, 15863576⟩, ⟨8, 14226947, 7931788, 98638815, 54992977⟩, ⟨9, 14226947, 3965894, 111915948, 31197613⟩, ⟨10,
    14226947, 1982947, 95789373, 13351090⟩],
    [⟨8, 36705118, 204637871, 56432881, 314623825⟩, ⟨9, 19727763, 54992977, 73410236, 204637871⟩, ⟨10, 39455526, 54992977,
    53682473, 74822447⟩, ⟨11, 14226947, 9914735, 78911052, 54992977⟩, ⟨12, 28453894, 9914735, 64684105, 22539121⟩, ⟨13,
    36230211, 6312193, 56907788, 9914735⟩, ⟨14, 20677577, 1801271, 72460422, 6312193⟩],
    [⟨12, 40100589, 139730159, 53037410, 184808401⟩, ⟨13, 12936821, 22539121, 80201178, 139730159⟩, ⟨14, 25873642, 22539121,
    67264357, 58595519⟩, ⟨15, 41390715, 18028199, 51747284, 22539121⟩, ⟨16, 10356569, 2255461, 82781430, 18028199⟩, ⟨17,
    20713138, 2255461, 72424861, 7886369⟩],
    [⟨15, 42429928, 184808401, 50708071, 220864799⟩, ⟨16, 8278143, 18028199, 84859856, 184808401⟩, ⟨17, 16556286, 18028199,
    76581713, 83390101⟩, ⟨18, 33112572, 18028199, 60025427, 32680951⟩, ⟨19, 26912855, 7326376, 66225144, 18028199⟩, ⟨20,
    26912855, 3663188, 51711723, 7038635⟩],
    [⟨18, 21938857, 119446499, 71199142, 387645001⟩, ⟨19, 49260285, 134099251, 43877714, 119446499⟩, ⟨20, 5382571, 7326376,
    93137999, 126772875⟩, ⟨21, 5382571, 3663188, 170128285, 115783311⟩, ⟨22, 5382571, 1831594, 275665718, 93804183⟩, ⟨23,
    5382571, 915797, 309115741, 52593318⟩, ⟨24, 10765142, 915797, 115343185, 9812313⟩],
    [⟨22, 39408228, 134099251, 34025657, 115783311⟩, ⟨23, 5382571, 9157970, 73433885, 124941281⟩, ⟨24, 5382571, 4578985,
    141485199, 120362296⟩, ⟨25, 10765142, 4578985, 119954915, 51023178⟩, ⟨26, 21530284, 4578985, 76894347, 16353619⟩, ⟨27,
    43060568, 4578985, 12303495, 1308332⟩],
    [⟨25, 29373554, 124941281, 34756125, 147836206⟩, ⟨26, 58747108, 124941281, 34756125, 73918103⟩, ⟨27, 23990983, 25511589,
    69512250, 73918103⟩, ⟨28, 47981966, 25511589, 45521267, 24203257⟩, ⟨29, 2460699, 654166, 93503233, 24857423⟩, ⟨30,
    2460699, 327083, 184545767, 24530340⟩],
    [⟨28, 13902450, 73918103, 65698333, 349312254⟩, ⟨29, 27804900, 73918103, 37893433, 100738024⟩, ⟨30, 37893433, 50369012,
    55609800, 73918103⟩, ⟨31, 37893433, 25184506, 35432734, 23549091⟩, ⟨32, 37893433, 12592253, 32972035, 10956838⟩, ⟨33,
    32972035, 5478419, 42814831, 7113834⟩],
    [⟨31, 11121960, 73918103, 60137353, 399681266⟩, ⟨32, 22243920, 73918103, 60137353, 199840633⟩, ⟨33, 37893433, 62961265,
    44487840, 73918103⟩, ⟨34, 6594407, 5478419, 82381273, 68439684⟩, ⟨35, 13188814, 5478419, 69192459, 28741423⟩, ⟨36,
    26377628, 5478419, 56003645, 11631502⟩, ⟨37, 56003645, 5815751, 3248389, 337332⟩],
    [⟨35, 17795136, 73918103, 64586137, 268280317⟩, ⟨36, 46791001, 97181107, 35590272, 73918103⟩, ⟨37, 11200729, 11631502,
    82381273, 85549605⟩, ⟨38, 11200729, 5815751, 131160359, 68102352⟩, ⟨39, 22401458, 5815751, 63955985, 16603923⟩, ⟨40,
    44802916, 5815751, 41554527, 5394086⟩],
    [⟨38, 35192655, 182730712, 47188618, 245017313⟩, ⟨39, 35192655, 91365356, 23991926, 62286601⟩, ⟨40, 35192655, 45682678,
    12791197, 16603923⟩, ⟨41, 35192655, 22841339, 9610261, 6237416⟩, ⟨42, 9610261, 3118708, 70385310, 22841339⟩, ⟨43,
    9610261, 1559354, 121550098, 19722631⟩],
    [⟨41, 7038531, 45682678, 223947127, 1453499955⟩, ⟨42, 7038531, 22841339, 145237421, 471322378⟩, ⟨43, 14077062, 22841339,
    46697987, 75771816⟩, ⟨44, 28154124, 22841339, 18543863, 15044569⟩, ⟨45, 56308248, 22841339, 9610261, 3898385⟩, ⟨46,
    46697987, 9471477, 19220522, 3898385⟩, ⟨47, 27477465, 2786546, 65918509, 6684931⟩],
    [⟨45, 28154124, 114206695, 48755371, 197775281⟩, ⟨46, 56308248, 114206695, 20601247, 41784293⟩, ⟨47, 35707001, 36211201,
    41202494, 41784293⟩, ⟨48, 5495493, 2786546, 76909495, 38997747⟩, ⟨49, 5495493, 1393273, 142828004, 36211201⟩, ⟨50,
    10990986, 1393273, 126341525, 16015691⟩],
    [⟨48, 15381899, 77995494, 97234597, 493037981⟩, ⟨49, 15381899, 38997747, 102177800, 259051499⟩, ⟨50, 30763798, 38997747,
    25268305, 32031382⟩, ⟨51, 25268305, 16015691, 61527596, 38997747⟩, ⟨52, 36259291, 11491028, 50536610, 16015691⟩, ⟨53,
    36259291, 5745514, 28554638, 4524663⟩],
    [⟨51, 35817459, 227020117, 30763798, 194988735⟩, ⟨52, 5053661, 16015691, 66581257, 211004426⟩, ⟨53, 10107322, 16015691,
    66581257, 105502213⟩, ⟨54, 20214644, 16015691, 56473935, 44743261⟩, ⟨55, 36259291, 14363785, 40429288, 16015691⟩, ⟨56,
    4169997, 825953, 76688579, 15189738⟩, ⟨57, 8339994, 825953, 76688579, 7594869⟩],
    [⟨55, 11294787, 44743261, 110572940, 438024543⟩, ⟨56, 22589574, 44743261, 76688579, 151897380⟩, ⟨57, 45179148, 44743261,
    31509431, 31205429⟩, ⟨58, 13669717, 6768916, 76688579, 37974345⟩, ⟨59, 13669717, 3384458, 112368007, 27820971⟩, ⟨60,
    13669717, 1692229, 115378278, 14283139⟩],
    [⟨58, 33409375, 165435212, 55048977, 272589331⟩, ⟨59, 33409375, 82717606, 43279204, 107154119⟩, ⟨60, 33409375, 41358803,
    19739658, 24436513⟩, ⟨61, 13669717, 8461145, 66818750, 41358803⟩, ⟨62, 53149033, 16448829, 27339434, 8461145⟩, ⟨63,
    25809599, 3993842, 54678868, 8461145⟩],
    [⟨61, 6681875, 41358803, 246923408, 1528381867⟩, ⟨62, 13363750, 41358803, 93240283, 288564699⟩, ⟨63, 26727500, 41358803,
    26421533, 40885342⟩, ⟨64, 53455000, 41358803, 26421533, 20442671⟩, ⟨65, 27033467, 10458066, 52843066, 20442671⟩, ⟨66,
    27033467, 5229033, 51619198, 9984605⟩, ⟨67, 54066934, 5229033, 24585731, 2377786⟩],
    [⟨65, 10691000, 41358803, 122640533, 474442582⟩, ⟨66, 21382000, 41358803, 37112533, 71786079⟩, ⟨67, 42764000, 41358803,
    15730533, 15213638⟩, ⟨68, 15730533, 7606819, 69797467, 33751984⟩, ⟨69, 31461066, 7606819, 38336401, 9269173⟩, ⟨70,
    6875335, 831177, 69797467, 8437996⟩],
    [⟨68, 8552800, 41358803, 178233733, 861885447⟩, ⟨69, 17105600, 41358803, 49941733, 120751701⟩, ⟨70, 34211200, 41358803,
    1375067, 1662354⟩, ⟨71, 1375067, 831177, 68422400, 41358803⟩, ⟨72, 2750134, 831177, 67047333, 20263813⟩, ⟨73, 5500268,
    831177, 69797467, 10547495⟩],
    [⟨71, 6842240, 41358803, 238103333, 1439246335⟩, ⟨72, 13684480, 41358803, 80731813, 243996933⟩, ⟨73, 27368960, 41358803,
    12309413, 18601459⟩, ⟨74, 54737920, 41358803, 15059547, 11378672⟩, ⟨75, 15059547, 5689336, 79356746, 29980131⟩, ⟨76,
    15059547, 2844668, 113534851, 21446127⟩, ⟨77, 15059547, 1422334, 91533779, 8645121⟩],
    [⟨75, 10947584, 41358803, 127259045, 480771079⟩, ⟨76, 21895168, 41358803, 28730789, 54270926⟩, ⟨77, 43790336, 41358803,
    28730789, 27135463⟩, ⟨78, 15059547, 7111670, 72521125, 34247133⟩, ⟨79, 15059547, 3555835, 114923156, 27135463⟩, ⟨80,
    30119094, 3555835, 39625421, 4678144⟩],
    [⟨78, 43790336, 206794015, 14504225, 68494266⟩, ⟨79, 14504225, 34247133, 87580672, 206794015⟩, ⟨80, 29008450, 34247133,
    44067997, 52026308⟩, ⟨81, 44067997, 26013154, 58016900, 34247133⟩, ⟨82, 44067997, 13006577, 27897806, 8233979⟩, ⟨83,
    16170191, 2386299, 71965803, 10620278⟩],
    [⟨81, 5801690, 34247133, 96283207, 568355737⟩, ⟨82, 11603380, 34247133, 90481517, 267054302⟩, ⟨83, 23206760, 34247133,
    67274757, 99280018⟩, ⟨84, 46413520, 34247133, 20861237, 15392876⟩, ⟨85, 20861237, 7696438, 71965803, 26550695⟩, ⟨86,
    20861237, 3848219, 81347895, 15006038⟩, ⟨87, 41722474, 3848219, 39625421, 3654800⟩],
    [⟨85, 9282704, 34247133, 95122869, 350941444⟩, ⟨86, 18565408, 34247133, 76557461, 141223589⟩, ⟨87, 37130816, 34247133,
    57992053, 53488228⟩, ⟨88, 16269579, 7503019, 57992053, 26744114⟩, ⟨89, 57992053, 13372057, 32539158, 7503019⟩, ⟨90,
    25452895, 2934519, 65078316, 7503019⟩],
    [⟨88, 26450737, 121982494, 68672132, 316694311⟩, ⟨89, 26450737, 60991247, 57992053, 133720570⟩, ⟨90, 52901474, 60991247,
    5090579, 5869038⟩, ⟨91, 5090579, 2934519, 105802948, 60991247⟩, ⟨92, 10181158, 2934519, 100712369, 29028364⟩, ⟨93,
    20362316, 2934519, 80350053, 11579663⟩],
    [⟨91, 43339295, 249834026, 9562179, 55122209⟩, ⟨92, 43339295, 124917013, 19124358, 55122209⟩, ⟨93, 24214937, 34897402,
    62463653, 90019611⟩, ⟨94, 24214937, 17448701, 76497432, 55122209⟩, ⟨95, 48429874, 17448701, 3852621, 1388053⟩, ⟨96,
    52282495, 9418377, 44577253, 8030324⟩, ⟨97, 44577253, 4015162, 15410484, 1388053⟩],
    [⟨95, 34671436, 124917013, 10456499, 37673508⟩, ⟨96, 10456499, 18836754, 69342872, 124917013⟩, ⟨97, 10456499, 9418377,
    117772746, 106080259⟩, ⟨98, 20912998, 9418377, 86403249, 38912564⟩, ⟨99, 41825996, 9418377, 44577253, 10037905⟩, ⟨100,
    2751257, 309764, 83651992, 9418377⟩],
    [⟨98, 25645849, 115498636, 61748197, 278089157⟩, ⟨99, 25645849, 57749318, 46558847, 104841203⟩, ⟨100, 25645849, 28874659,
    41825996, 47091885⟩, ⟨101, 51291698, 28874659, 16180147, 9108613⟩, ⟨102, 35111551, 9883023, 32360294, 9108613⟩, ⟨103,
    2751257, 387205, 67471845, 9495818⟩],
    [⟨101, 25645849, 144373295, 64786067, 364713134⟩, ⟨102, 13494369, 37983272, 51291698, 144373295⟩, ⟨103, 13494369,
    18991636, 102583396, 144373295⟩, ⟨104, 13494369, 9495818, 124200578, 87398387⟩, ⟨105, 13494369, 4747909, 99963097,
    35171388⟩, ⟨106, 26988738, 4747909, 18996883, 3341967⟩, ⟨107, 53977476, 4747909, 7991855, 702971⟩],
    [⟨105, 46431106, 163364931, 13494369, 47479090⟩, ⟨106, 13494369, 23739545, 79367843, 139625386⟩, ⟨107, 26988738,
    23739545, 52379105, 46073148⟩, ⟨108, 52379105, 23036574, 1598371, 702971⟩, ⟨109, 52379105, 11518287, 3196742, 702971⟩,
    ⟨110, 55575847, 6110629, 49182363, 5407658⟩],
    [⟨108, 10475821, 46073148, 58416201, 256917169⟩, ⟨109, 10475821, 23036574, 106356581, 233880595⟩, ⟨110, 10475821,
    11518287, 149858236, 164770873⟩, ⟨111, 20951642, 11518287, 76527489, 42071432⟩, ⟨112, 41903284, 11518287, 34624205,
    9517429⟩, ⟨113, 7279079, 1000429, 76527489, 10517858⟩],
    [⟨111, 48828125, 268435456, 10475821, 57591435⟩, ⟨112, 48828125, 134217728, 20951642, 57591435⟩, ⟨113, 48828125,
    67108864, 6924841, 9517429⟩, ⟨114, 48828125, 33554432, 13849682, 9517429⟩, ⟨115, 48828125, 16777216, 21128761, 7259787⟩,
    ⟨116, 48828125, 8388608, 6570603, 1128821⟩, ⟨117, 48828125, 4194304, 13141206, 1128821⟩],
    [],
    [],
    [],
    [],
    [],
    [],
    [],
    [],
    [],
    [],
    [],
    [],
    [],
    [],
    [],
    [],
    [],
    [],
    [],
    [],
    [⟨185, 33554432, 9765625, 14032713, 4084057⟩, ⟨186, 19521719, 2840784, 67108864, 9765625⟩],
    [⟨186, 33554432, 48828125, 9517429, 13849682⟩, ⟨187, 9517429, 6924841, 67108864, 48828125⟩, ⟨188, 19034858, 6924841,
    57591435, 20951642⟩, ⟨189, 57591435, 10475821, 38069716, 6924841⟩, ⟨190, 19521719, 1775490, 76139432, 6924841⟩],
    [⟨188, 11518287, 41903284, 67108864, 244140625⟩, ⟨189, 11518287, 20951642, 111181154, 202237341⟩, ⟨190, 11518287,
    10475821, 141734299, 128906594⟩, ⟨191, 23036574, 10475821, 49588003, 22550013⟩, ⟨192, 46073148, 10475821, 26551429,
    6037096⟩, ⟨193, 26551429, 3018548, 65594867, 7457273⟩],
    [⟨191, 46776119, 212713162, 58294406, 265092267⟩, ⟨192, 46776119, 106356581, 23036574, 52379105⟩, ⟨193, 23739545,
    26988738, 69812693, 79367843⟩, ⟨194, 23739545, 13494369, 68406751, 38884736⟩, ⟨195, 47479090, 13494369, 20927661,
    5947999⟩, ⟨196, 26551429, 3773185, 68406751, 9721184⟩],
    [⟨194, 4747909, 26988738, 79308511, 450816691⟩, ⟨195, 4747909, 13494369, 158617022, 450816691⟩, ⟨196, 9495818, 13494369,
    134877477, 191672423⟩, ⟨197, 18991636, 13494369, 87398387, 62100289⟩, ⟨198, 37983272, 13494369, 30423479, 10808591⟩,
    ⟨199, 7559793, 1342889, 68406751, 12151480⟩, ⟨200, 15119586, 1342889, 68406751, 6075740⟩],
    [⟨198, 28874659, 102583396, 47866295, 170055241⟩, ⟨199, 28874659, 51291698, 37983272, 67471845⟩, ⟨200, 28874659,
    25645849, 18217226, 16180147⟩, ⟨201, 57749318, 25645849, 10657433, 4732851⟩, ⟨202, 47091885, 10456499, 21314866,
    4732851⟩, ⟨203, 25777019, 2861824, 68406751, 7594675⟩],
    [⟨201, 28874659, 128229245, 67167695, 298284486⟩, ⟨202, 9418377, 20912998, 57749318, 128229245⟩, ⟨203, 9418377, 10456499,
    115498636, 128229245⟩, ⟨204, 18836754, 10456499, 87243505, 48429874⟩, ⟨205, 37673508, 10456499, 49569997, 13758438⟩,
    ⟨206, 49569997, 6879219, 25777019, 3577280⟩],
    [⟨204, 26867078, 149142243, 71182857, 395144234⟩, ⟨205, 17448701, 48429874, 53734156, 149142243⟩, ⟨206, 17448701,
    24214937, 90019611, 124927306⟩, ⟨207, 34897402, 24214937, 55122209, 38248716⟩, ⟨208, 14672595, 5090579, 55122209,
    19124358⟩, ⟨209, 55122209, 9562179, 29345190, 5090579⟩, ⟨210, 25777019, 2235800, 58690380, 5090579⟩],
    [⟨208, 31962883, 110893527, 60991247, 211605896⟩, ⟨209, 2934519, 5090579, 60991247, 105802948⟩, ⟨210, 5869038, 5090579,
    60991247, 52901474⟩, ⟨211, 11738076, 5090579, 60991247, 26450737⟩, ⟨212, 49253171, 10680079, 23476152, 5090579⟩, ⟨213,
    25777019, 2794750, 46952304, 5090579⟩],
    [⟨211, 13372057, 57992053, 74363304, 322499423⟩, ⟨212, 26744114, 57992053, 60991247, 132253685⟩, ⟨213, 34247133,
    37130816, 53488228, 57992053⟩, ⟨214, 34247133, 18565408, 38482190, 20861237⟩, ⟨215, 34247133, 9282704, 8470114, 2295829⟩,
    ⟨216, 34247133, 4641352, 16940228, 2295829⟩],
    [⟨214, 41943571, 227376554, 45791790, 248237791⟩, ⟨215, 41943571, 113688277, 7696438, 20861237⟩, ⟨216, 34247133,
    46413520, 49640009, 67274757⟩, ⟨217, 34247133, 23206760, 30785752, 20861237⟩, ⟨218, 34247133, 11603380, 27324371,
    9257857⟩, ⟨219, 34247133, 5801690, 20401609, 3456167⟩, ⟨220, 34247133, 2900845, 6556085, 555322⟩],
    [⟨218, 13006577, 44067997, 60260287, 204169794⟩, ⟨219, 60260287, 102084897, 26013154, 44067997⟩, ⟨220, 34247133,
    29008450, 52026308, 44067997⟩, ⟨221, 34247133, 14504225, 35558350, 15059547⟩, ⟨222, 1311217, 277661, 68494266, 14504225⟩,
    ⟨223, 2622434, 277661, 69805483, 7390943⟩],
    [⟨221, 41358803, 175161344, 37802968, 160101797⟩, ⟨222, 41358803, 87580672, 34247133, 72521125⟩, ⟨223, 41358803,
    43790336, 27135463, 28730789⟩, ⟨224, 41358803, 21895168, 12912123, 6835621⟩, ⟨225, 41358803, 10947584, 15534557,
    4111963⟩, ⟨226, 41358803, 5473792, 10289689, 1361829⟩],
    [⟨224, 41358803, 218951680, 38514135, 203892133⟩, ⟨225, 41358803, 109475840, 35669467, 94416293⟩, ⟨226, 41358803,
    54737920, 29980131, 39678373⟩, ⟨227, 41358803, 27368960, 18601459, 12309413⟩, ⟨228, 41358803, 13684480, 4155885,
    1375067⟩, ⟨229, 41358803, 6842240, 8311770, 1375067⟩],
    [⟨227, 41358803, 273689600, 30811308, 203892133⟩, ⟨228, 41358803, 136844800, 20263813, 67047333⟩, ⟨229, 41358803,
    68422400, 831177, 1375067⟩, ⟨230, 41358803, 34211200, 1662354, 1375067⟩, ⟨231, 41358803, 17105600, 3324708, 1375067⟩,
    ⟨232, 41358803, 8552800, 6649416, 1375067⟩, ⟨233, 41358803, 4276400, 13298832, 1375067⟩],
    [⟨231, 41358803, 171056000, 24482811, 101258533⟩, ⟨232, 41358803, 85528000, 7606819, 15730533⟩, ⟨233, 41358803, 42764000,
    15213638, 15730533⟩, ⟨234, 41358803, 21382000, 10931527, 5651467⟩, ⟨235, 41358803, 10691000, 19495749, 5039533⟩, ⟨236,
    41358803, 5345500, 2367305, 305967⟩],
    [⟨234, 41358803, 213820000, 36129770, 186786533⟩, ⟨235, 41358803, 106910000, 30900737, 79876533⟩, ⟨236, 41358803,
    53455000, 20442671, 26421533⟩, ⟨237, 41358803, 26727500, 473461, 305967⟩, ⟨238, 41358803, 13363750, 946922, 305967⟩,
    ⟨239, 41358803, 6681875, 1893844, 305967⟩],
    [⟨237, 41358803, 267275000, 28903816, 186786533⟩, ⟨238, 41358803, 133637500, 16448829, 53149033⟩, ⟨239, 41358803,
    66818750, 32897658, 53149033⟩, ⟨240, 41358803, 33409375, 24436513, 19739658⟩, ⟨241, 24436513, 9869829, 58281093,
    23539546⟩, ⟨242, 9408067, 1899944, 58281093, 11769773⟩, ⟨243, 9408067, 949972, 97746052, 9869829⟩],
    [⟨241, 41358803, 167046875, 37974345, 153377158⟩, ⟨242, 37974345, 76688579, 44743261, 90358296⟩, ⟨243, 44743261,
    45179148, 31205429, 31509431⟩, ⟨244, 44743261, 22589574, 17667597, 8919857⟩, ⟨245, 44743261, 11294787, 9408067, 2374930⟩,
    ⟨246, 9408067, 1187465, 80078455, 10107322⟩],
    [⟨244, 15189738, 76688579, 90312475, 455961477⟩, ⟨245, 30379476, 76688579, 44743261, 112947870⟩, ⟨246, 44743261,
    56473935, 16015691, 20214644⟩, ⟨247, 16015691, 10107322, 89486522, 56473935⟩, ⟨248, 16015691, 5053661, 98894589,
    31205630⟩, ⟨249, 32031382, 5053661, 34831825, 5495493⟩],
    [⟨247, 33252233, 209851093, 38997747, 246110384⟩, ⟨248, 38997747, 123055192, 27506719, 86795901⟩, ⟨249, 38997747,
    61527596, 16015691, 25268305⟩, ⟨250, 38997747, 30763798, 32031382, 25268305⟩, ⟨251, 38997747, 15381899, 25065017,
    9886406⟩, ⟨252, 25065017, 4943203, 52930477, 10438696⟩, ⟨253, 52930477, 5219348, 2800443, 276145⟩],
    [⟨251, 38997747, 153818990, 37604474, 148323497⟩, ⟨252, 38997747, 76909495, 36211201, 71414002⟩, ⟨253, 36211201,
    35707001, 41784293, 41202494⟩, ⟨254, 41784293, 20601247, 30638109, 15105754⟩, ⟨255, 30638109, 7552877, 52930477,
    13048370⟩, ⟨256, 8345741, 1028692, 52930477, 6524185⟩]]

end Kami.FoldFile
