import Mathlib.Data.Nat.Notation
import Mathlib.Data.Int.Notation

/-! Data of the schoen test functions, generated by tools/gen_schoen.py from
rbfopt_test_functions.py: coordinates of the points in millionths, values in tenths.
The data of `schoen_10_1_cat` and `schoen_10_2_cat` are their own literals. -/

namespace Rbfopt.SchoenData

/-- `schoen_6_1.z`, rbfopt_test_functions.py:474-524. -/
def z_6_1 : List (List ℕ) :=
  [[298854, 181010, 984817, 125272, 548396, 894658],
   [800371, 817380, 398577, 652349, 250843, 130235],
   [268631, 929778, 640422, 462004, 492930, 434955],
   [257863, 729198, 210810, 364378, 228216, 947432],
   [767627, 592150, 103788, 696895, 472449, 244504],
   [369630, 110889, 72344, 515753, 68087, 103057],
   [425457, 807081, 491209, 449497, 65690, 592775],
   [544229, 619841, 704609, 573098, 44844, 305800],
   [164031, 722884, 670496, 517915, 176386, 921565],
   [153788, 703577, 899129, 406134, 941356, 538215],
   [984781, 510479, 573361, 884599, 399472, 712935],
   [488416, 403997, 888823, 48434, 265197, 478025],
   [47985, 280071, 709960, 278919, 35737, 37699],
   [656172, 498412, 458622, 982970, 41234, 921127],
   [590802, 359690, 396516, 338153, 320793, 847369],
   [649160, 846974, 451818, 64864, 818545, 955844],
   [583716, 669610, 463098, 492710, 989690, 2397],
   [97300, 112389, 128759, 182995, 262808, 701887],
   [487363, 892520, 269056, 116046, 905416, 808013],
   [908316, 23997, 670399, 985859, 178548, 450410],
   [230409, 381732, 613667, 697260, 16950, 736507],
   [132544, 526349, 650042, 84086, 979257, 771499],
   [872978, 8826, 587481, 624637, 623175, 939539],
   [447828, 836386, 223285, 422756, 344488, 555953],
   [546839, 153934, 953017, 640891, 666774, 647583],
   [762237, 608920, 401447, 56202, 203535, 890609],
   [655150, 444544, 495582, 247926, 155128, 188004],
   [481813, 387178, 597276, 634671, 285404, 714793],
   [976385, 18854, 262585, 640434, 86314, 669879],
   [120164, 882300, 57626, 695111, 735135, 4711],
   [414644, 715618, 642033, 770645, 407019, 502945],
   [257475, 620029, 840603, 638546, 636521, 883558],
   [788980, 374926, 448016, 81941, 225763, 944905],
   [661591, 178832, 790349, 141653, 424235, 571960],
   [546361, 624907, 190470, 412713, 124748, 662788],
   [226384, 65829, 960836, 767766, 89695, 441792],
   [303675, 370047, 973692, 830432, 424719, 173571],
   [548375, 823234, 334253, 78398, 97269, 195120],
   [646225, 100478, 723833, 891035, 386094, 360272],
   [362757, 114700, 731020, 783785, 250399, 244399],
   [904335, 869074, 479004, 525872, 359411, 338333],
   [563175, 245903, 694417, 833524, 205055, 132535],
   [401356, 920963, 401902, 120625, 765834, 381552],
   [769562, 279591, 567598, 17192, 697366, 813451],
   [738572, 984740, 7616, 5382, 592976, 771773],
   [683721, 824097, 731623, 936945, 182420, 393537],
   [375859, 541929, 974640, 377459, 754060, 19335],
   [410275, 619158, 148428, 419225, 637412, 204038],
   [552701, 472723, 491747, 17922, 198525, 74668],
   [749510, 158720, 395476, 528285, 143614, 961610]]

/-- `schoen_6_1.f`, rbfopt_test_functions.py:525-531. -/
def f_6_1 : List ℤ :=
  [-10000, -10000, -10000, 6722, 8614, 5209, 1210, 115, 482, 7024,
   5362, 4577, 8013, 7877, 7686, 2924, 9600, 5731, 3037, 2833,
   4741, 2169, 4622, 8536, 6771, 4646, 8306, 8318, 1096, 9676,
   1229, 8962, 4902, 7104, 811, 8029, 9998, 9455, 6723, 7129,
   2358, 2665, 7724, 3266, 5855, 169, 1359, 2242, 3821, 6146]

/-- `schoen_6_2.z`, rbfopt_test_functions.py:568-618. -/
def z_6_2 : List (List ℕ) :=
  [[669711, 815540, 646120, 377447, 111538, 40529],
   [632, 706804, 857031, 473778, 993569, 616184],
   [625617, 880221, 534547, 760235, 276998, 735438],
   [774577, 922914, 947791, 315328, 414841, 785803],
   [79768, 131498, 225123, 464621, 638041, 992795],
   [471038, 244503, 565776, 898397, 604639, 306230],
   [642233, 482219, 34943, 934805, 972714, 153664],
   [550151, 310507, 42126, 230722, 444375, 117355],
   [789984, 488482, 65237, 842940, 793454, 799489],
   [850183, 754551, 516033, 166362, 201966, 44234],
   [601, 896758, 304433, 149125, 178398, 871836],
   [56787, 932745, 218009, 778061, 131847, 356237],
   [210266, 221479, 14831, 200901, 656693, 891819],
   [528515, 178025, 188138, 411485, 217833, 907579],
   [195801, 663099, 477312, 395250, 655791, 820570],
   [933208, 789323, 350520, 855434, 491082, 874993],
   [251047, 543513, 529644, 218495, 351637, 608904],
   [963286, 793004, 650148, 881362, 904832, 5397],
   [431744, 438965, 44544, 834968, 330614, 451282],
   [234845, 328576, 388284, 339183, 206086, 600034],
   [512783, 961787, 959109, 632098, 910614, 912025],
   [454168, 743189, 834284, 955817, 72172, 523068],
   [696968, 720236, 341060, 54580, 45599, 549192],
   [272955, 318845, 700767, 426325, 895755, 843128],
   [992189, 332899, 272784, 19284, 73711, 434800],
   [154276, 639611, 924641, 587242, 358453, 548022],
   [21506, 450392, 515150, 32232, 650223, 849384],
   [316499, 513234, 958219, 843587, 125408, 836643],
   [538587, 261750, 732136, 30271, 893345, 270532],
   [987469, 708780, 446487, 968784, 734448, 788229],
   [353358, 135036, 249018, 565029, 740519, 250807],
   [810372, 656510, 472093, 225741, 420513, 202519],
   [848128, 551586, 513140, 956164, 483389, 404478],
   [292239, 297077, 934202, 468329, 872274, 992632],
   [828869, 534749, 716451, 405855, 164485, 531068],
   [130616, 757677, 284500, 438300, 957643, 725899],
   [503542, 640368, 381914, 847206, 134660, 762294],
   [653851, 646544, 436036, 944225, 310369, 392362],
   [539397, 27168, 697972, 209293, 992890, 8113],
   [902045, 171034, 194924, 620057, 2203, 557433],
   [802612, 85835, 380626, 492568, 238166, 961837],
   [466993, 647847, 113397, 15357, 928904, 166425],
   [892021, 869756, 681364, 129555, 394682, 745036],
   [60675, 869904, 757236, 220765, 615988, 754288],
   [31815, 340961, 455958, 529616, 840036, 365200],
   [834595, 603639, 745330, 85080, 184636, 238718],
   [575681, 250761, 874497, 870401, 854591, 968971],
   [359629, 724830, 455053, 120311, 258563, 932004],
   [209891, 990298, 767661, 284193, 375076, 154363],
   [410402, 437385, 639614, 946647, 579466, 524775]]

/-- `schoen_6_2.f`, rbfopt_test_functions.py:619-625. -/
def f_6_2 : List ℤ :=
  [-10000, -10000, -10000, 1096, 1324, 5582, 1580, 62, 2054, 5939,
   24, 3998, 3959, 2126, 9761, 1044, 5521, 4363, 8371, 2837,
   7797, 3921, 858, 8851, 4015, 3675, 6944, 6916, 9331, 5907,
   2462, 3700, 543, 7194, 952, 2760, 8291, 6136, 2428, 4246,
   3206, 6661, 4792, 4200, 9566, 2410, 211, 1698, 1781, 3944]

/-- `schoen_10_1.z`, rbfopt_test_functions.py:662-762. -/
def z_10_1 : List (List ℕ) :=
  [[914871, 765230, 139426, 617466, 823635, 794003, 801171, 568811, 279434, 540422],
   [976983, 593277, 701115, 585262, 669106, 272906, 177127, 143389, 561181, 18744],
   [385208, 984106, 390066, 905970, 169600, 191291, 564157, 689910, 857031, 715390],
   [975998, 536904, 819333, 801793, 564454, 336124, 654190, 44197, 717416, 465807],
   [750519, 415284, 258927, 736115, 597744, 763716, 747691, 969633, 188117, 964954],
   [412888, 671756, 380214, 558595, 768370, 998320, 212183, 606757, 531315, 303569],
   [196682, 139879, 108608, 736975, 755971, 21390, 852398, 188596, 920133, 45012],
   [956270, 729258, 397664, 13146, 519861, 300011, 8396, 820346, 176841, 402298],
   [126432, 872346, 923581, 297492, 992744, 486525, 915493, 589980, 498242, 989945],
   [697409, 26641, 875467, 503039, 563285, 96769, 933643, 884419, 585825, 395465],
   [494783, 824300, 153326, 202651, 579815, 416954, 707624, 497959, 568876, 812841],
   [126963, 757337, 648583, 787445, 822586, 401155, 301350, 562707, 744074, 88372],
   [293611, 835864, 925111, 760322, 729456, 96840, 651466, 975836, 691353, 38384],
   [999250, 916829, 205699, 27241, 156956, 206598, 175242, 811219, 660192, 119865],
   [387978, 665180, 774376, 135223, 766238, 380668, 58279, 727506, 991527, 345759],
   [299341, 66231, 680305, 392230, 319985, 698292, 100236, 394973, 96232, 362943],
   [281548, 860858, 647870, 981650, 110777, 836484, 697387, 659942, 694425, 434991],
   [606706, 52287, 858208, 738885, 158495, 2367, 933796, 112986, 647308, 421573],
   [776505, 101364, 610406, 275033, 548409, 998967, 536743, 943903, 960993, 251672],
   [371347, 491122, 772374, 860206, 752131, 338591, 826739, 312111, 768881, 862719],
   [866886, 358220, 131205, 276334, 334111, 429525, 752197, 167524, 437764, 162916],
   [584246, 511215, 659647, 349220, 954428, 477982, 386041, 813944, 753530, 983276],
   [697327, 499835, 530487, 599958, 497257, 998852, 106262, 186978, 887481, 749174],
   [41611, 278918, 999095, 825221, 218320, 383711, 77041, 642061, 668906, 758298],
   [72437, 592862, 40655, 446330, 651659, 55738, 631924, 890039, 192989, 741054],
   [533886, 135079, 787647, 593408, 749228, 749045, 190386, 755508, 465321, 465156],
   [748843, 696419, 882124, 843895, 858057, 220107, 350310, 102947, 453576, 875940],
   [560231, 580247, 381834, 807535, 184636, 615702, 628408, 81783, 793384, 233639],
   [384827, 589138, 630013, 634506, 630712, 521293, 494486, 681700, 288512, 319808],
   [721978, 452289, 426726, 323106, 781584, 999325, 43670, 884560, 520936, 430684],
   [810388, 624041, 811624, 105973, 199807, 440644, 864152, 282280, 397116, 499932],
   [973889, 677797, 80137, 549098, 625445, 577342, 538642, 388039, 552273, 793807],
   [365176, 228017, 623500, 84450, 177343, 910108, 632719, 521458, 894843, 707893],
   [502069, 622312, 958019, 744999, 515695, 407885, 590739, 736542, 297555, 237955],
   [313835, 90014, 336274, 433171, 330864, 105751, 160367, 651934, 207260, 293577],
   [886072, 592935, 498116, 321835, 11216, 543911, 506579, 216779, 406812, 261349],
   [789947, 881332, 696597, 742955, 252224, 718157, 188217, 371208, 178640, 347720],
   [482759, 663618, 622706, 36170, 278854, 88147, 482808, 134824, 28828, 944537],
   [184705, 662346, 917194, 186490, 918392, 955111, 636015, 447595, 813716, 372839],
   [231741, 637199, 745257, 201568, 697485, 897022, 239791, 495219, 153831, 387172],
   [198061, 194102, 550259, 751804, 503973, 34252, 788267, 731760, 118338, 57247],
   [68470, 545180, 668845, 714932, 688014, 203845, 146138, 109039, 470214, 441797],
   [85180, 142394, 938665, 71422, 946796, 697832, 472400, 161384, 325715, 122550],
   [637672, 986961, 969438, 989508, 381318, 800871, 12035, 326007, 459124, 645374],
   [147210, 954608, 361146, 94699, 92327, 301664, 478447, 8274, 680576, 4184],
   [768792, 812618, 915766, 29070, 506944, 457816, 839167, 24706, 990756, 88779],
   [872678, 601536, 948347, 621023, 415621, 289340, 291338, 190461, 664007, 583513],
   [641216, 700152, 80576, 355500, 294700, 338614, 563964, 528079, 759223, 508432],
   [738489, 77376, 429485, 300586, 576927, 185931, 231659, 954833, 614178, 92903],
   [729321, 318607, 768657, 899419, 749499, 623403, 671793, 52835, 973726, 168336]]

/-- `schoen_10_1.f`, rbfopt_test_functions.py:763-769. -/
def f_10_1 : List ℤ :=
  [-10000, -10000, -10000, 7991, 3968, 3703, 4002, 2397, 6788, 8689,
   5644, 6816, 1530, 7607, 5629, 4349, 5792, 2606, 885, 6013,
   7548, 8948, 6728, 6337, 9218, 432, 2862, 9455, 7160, 727,
   6312, 6403, 4251, 8258, 5558, 1369, 8057, 7865, 4000, 8564,
   5480, 5108, 523, 1116, 6866, 8882, 3154, 3339, 615, 7552]

/-- `schoen_10_2.z`, rbfopt_test_functions.py:807-907. -/
def z_10_2 : List (List ℕ) :=
  [[131461, 965235, 46134, 983011, 719813, 827542, 662422, 570546, 578707, 13264],
   [68454, 682785, 582736, 434517, 310613, 869876, 993949, 629156, 590599, 356378],
   [632837, 961665, 15079, 378878, 805608, 685239, 528658, 752934, 717790, 374865],
   [286191, 912944, 400358, 902532, 324887, 850063, 483503, 764147, 147726, 159851],
   [303483, 754790, 90527, 653764, 164323, 402931, 593477, 448444, 711483, 113869],
   [57398, 302029, 596351, 565466, 694204, 974864, 323989, 298493, 859391, 238714],
   [139267, 214902, 608462, 297987, 499810, 578553, 548077, 208442, 46162, 246848],
   [680420, 783181, 828103, 475810, 680401, 188455, 15200, 650103, 762389, 63985],
   [409243, 600740, 302354, 588411, 436291, 294790, 701477, 994162, 433749, 535320],
   [77949, 530126, 869737, 387811, 705317, 632911, 442087, 82918, 441383, 591975],
   [622628, 54964, 20475, 145616, 163873, 321546, 282867, 743494, 750568, 732386],
   [538574, 66932, 225204, 290045, 613242, 529365, 384018, 946557, 974384, 425297],
   [108817, 850094, 886417, 161581, 82973, 506354, 589650, 638991, 45151, 688464],
   [917742, 365119, 484176, 173231, 210253, 303688, 992141, 23109, 977178, 535146],
   [183469, 198085, 511596, 275610, 753700, 437328, 986237, 28654, 767921, 997910],
   [484908, 759122, 577318, 359934, 935730, 617833, 770173, 311175, 4831, 157457],
   [634077, 236972, 16427, 261753, 349712, 245870, 412238, 523557, 985327, 94060],
   [477875, 803438, 496728, 848920, 497386, 938203, 279797, 287076, 395184, 980546],
   [450215, 193712, 975838, 103925, 77410, 709573, 253072, 311723, 885664, 204528],
   [557312, 815198, 97914, 539142, 826048, 130070, 49858, 223634, 76387, 831224],
   [927559, 324916, 563393, 209281, 344394, 953384, 298679, 890637, 966615, 380006],
   [26403, 997573, 479163, 379686, 687928, 832002, 214326, 348248, 73151, 62646],
   [726869, 911171, 961920, 874884, 216867, 76966, 776240, 495777, 963492, 425246],
   [357483, 486330, 759177, 748362, 889904, 350438, 232983, 823613, 792656, 441264],
   [875826, 359459, 214808, 425850, 493328, 456048, 523145, 504154, 90128, 472437],
   [813400, 808407, 427211, 902524, 210376, 490662, 915939, 169439, 78865, 485371],
   [877334, 982207, 679085, 486335, 940715, 585964, 289279, 694886, 172625, 201457],
   [141599, 476124, 762246, 67045, 411332, 813196, 134138, 302390, 856145, 349243],
   [346912, 82142, 787442, 857465, 371129, 448550, 967943, 775340, 943681, 656127],
   [619267, 547196, 470422, 141566, 584198, 952226, 196462, 629549, 685469, 824365],
   [14209, 789812, 836373, 186139, 493840, 710697, 910033, 368287, 865953, 140892],
   [482763, 72574, 26730, 143687, 739505, 419649, 13683, 662644, 785254, 234561],
   [821421, 844100, 153937, 671762, 290469, 631347, 591435, 498966, 43395, 176771],
   [404994, 496656, 951774, 497357, 715401, 23378, 493045, 342766, 117055, 698590],
   [985857, 831692, 423498, 215757, 341260, 790760, 941186, 716883, 62641, 582012],
   [676905, 280897, 800638, 898913, 735995, 592412, 433021, 432772, 874477, 112375],
   [377382, 118941, 529204, 419434, 673891, 74904, 129868, 819585, 220536, 353223],
   [233415, 136703, 487256, 777498, 901915, 612402, 778635, 436718, 484520, 641969],
   [273297, 670196, 344525, 669751, 180230, 530085, 393284, 326043, 260840, 364690],
   [931213, 676123, 912481, 898258, 1887, 408306, 917215, 496959, 287951, 562511],
   [47196, 780338, 895994, 88169, 552425, 130790, 308504, 232476, 187952, 105936],
   [343517, 356222, 416018, 450278, 487765, 40510, 592363, 771635, 577849, 315843],
   [527759, 529503, 210423, 756794, 892670, 339374, 445837, 363265, 432114, 942045],
   [560107, 110906, 115725, 761393, 969105, 921166, 455014, 593512, 111887, 217300],
   [463382, 635591, 329484, 573602, 492558, 474174, 371906, 850465, 467637, 261373],
   [33051, 422543, 294155, 699026, 846231, 47967, 686826, 480273, 463181, 345601],
   [285473, 723925, 202386, 671909, 685277, 993969, 415329, 155218, 233826, 88752],
   [29705, 651519, 813239, 677718, 961189, 285385, 824635, 837670, 524970, 815489],
   [519627, 508274, 141067, 156163, 274566, 536322, 834749, 852042, 656166, 964211],
   [119675, 971352, 52983, 178217, 408438, 215091, 102098, 256312, 51758, 906712]]

/-- `schoen_10_2.f`, rbfopt_test_functions.py:908-914. -/
def f_10_2 : List ℤ :=
  [-10000, -10000, -10000, 904, 8309, 527, 3752, 2897, 2441, 4702,
   1117, 9689, 9034, 9185, 8203, 4412, 6875, 8369, 110, 4545,
   9293, 9526, 9372, 8705, 2117, 3784, 3203, 7296, 4208, 2138,
   7177, 2854, 5228, 7483, 3710, 5012, 5686, 1119, 6452, 4862,
   1570, 9685, 1376, 1272, 9434, 4372, 1997, 4154, 9660, 3623]

/-- `schoen_6_1_int.z`, rbfopt_test_functions.py:1450-1500. -/
def z_6_1_int : List (List ℕ) :=
  [[298854, 181010, 984817, 125272, 548396, 894658],
   [800371, 817380, 398577, 652349, 250843, 130235],
   [268631, 929778, 640422, 462004, 492930, 434955],
   [257863, 729198, 210810, 364378, 228216, 947432],
   [767627, 592150, 103788, 696895, 472449, 244504],
   [369630, 110889, 72344, 515753, 68087, 103057],
   [425457, 807081, 491209, 449497, 65690, 592775],
   [544229, 619841, 704609, 573098, 44844, 305800],
   [164031, 722884, 670496, 517915, 176386, 921565],
   [153788, 703577, 899129, 406134, 941356, 538215],
   [984781, 510479, 573361, 884599, 399472, 712935],
   [488416, 403997, 888823, 48434, 265197, 478025],
   [47985, 280071, 709960, 278919, 35737, 37699],
   [656172, 498412, 458622, 982970, 41234, 921127],
   [590802, 359690, 396516, 338153, 320793, 847369],
   [649160, 846974, 451818, 64864, 818545, 955844],
   [583716, 669610, 463098, 492710, 989690, 2397],
   [97300, 112389, 128759, 182995, 262808, 701887],
   [487363, 892520, 269056, 116046, 905416, 808013],
   [908316, 23997, 670399, 985859, 178548, 450410],
   [230409, 381732, 613667, 697260, 16950, 736507],
   [132544, 526349, 650042, 84086, 979257, 771499],
   [872978, 8826, 587481, 624637, 623175, 939539],
   [447828, 836386, 223285, 422756, 344488, 555953],
   [546839, 153934, 953017, 640891, 666774, 647583],
   [762237, 608920, 401447, 56202, 203535, 890609],
   [655150, 444544, 495582, 247926, 155128, 188004],
   [481813, 387178, 597276, 634671, 285404, 714793],
   [976385, 18854, 262585, 640434, 86314, 669879],
   [120164, 882300, 57626, 695111, 735135, 4711],
   [414644, 715618, 642033, 770645, 407019, 502945],
   [257475, 620029, 840603, 638546, 636521, 883558],
   [788980, 374926, 448016, 81941, 225763, 944905],
   [661591, 178832, 790349, 141653, 424235, 571960],
   [546361, 624907, 190470, 412713, 124748, 662788],
   [226384, 65829, 960836, 767766, 89695, 441792],
   [303675, 370047, 973692, 830432, 424719, 173571],
   [548375, 823234, 334253, 78398, 97269, 195120],
   [646225, 100478, 723833, 891035, 386094, 360272],
   [362757, 114700, 731020, 783785, 250399, 244399],
   [904335, 869074, 479004, 525872, 359411, 338333],
   [563175, 245903, 694417, 833524, 205055, 132535],
   [401356, 920963, 401902, 120625, 765834, 381552],
   [769562, 279591, 567598, 17192, 697366, 813451],
   [738572, 984740, 7616, 5382, 592976, 771773],
   [683721, 824097, 731623, 936945, 182420, 393537],
   [375859, 541929, 974640, 377459, 754060, 19335],
   [400000, 600000, 100000, 400000, 637412, 204038],
   [500000, 400000, 400000, 0, 198525, 74668],
   [700000, 100000, 300000, 500000, 143614, 961610]]

/-- `schoen_6_1_int.f`, rbfopt_test_functions.py:1501-1508. -/
def f_6_1_int : List ℤ :=
  [6722, 8614, 5209, 1210, 115, 482, 7024, 5362, 4577, 8013,
   7877, 7686, 2924, 9600, 5731, 3037, 2833, 4741, 2169, 4622,
   8536, 6771, 4646, 8306, 8318, 1096, 9676, 1229, 8962, 4902,
   7104, 811, 8029, 9998, 9455, 6723, 7129, 2358, 2665, 7724,
   3266, 5855, 169, 1359, 2242, 3821, 6146, -10000, -10000, -10000]

/-- `schoen_6_2_int.z`, rbfopt_test_functions.py:1546-1596. -/
def z_6_2_int : List (List ℕ) :=
  [[669711, 815540, 646120, 377447, 111538, 40529],
   [632, 706804, 857031, 473778, 993569, 616184],
   [625617, 880221, 534547, 760235, 276998, 735438],
   [774577, 922914, 947791, 315328, 414841, 785803],
   [79768, 131498, 225123, 464621, 638041, 992795],
   [471038, 244503, 565776, 898397, 604639, 306230],
   [642233, 482219, 34943, 934805, 972714, 153664],
   [550151, 310507, 42126, 230722, 444375, 117355],
   [789984, 488482, 65237, 842940, 793454, 799489],
   [850183, 754551, 516033, 166362, 201966, 44234],
   [601, 896758, 304433, 149125, 178398, 871836],
   [56787, 932745, 218009, 778061, 131847, 356237],
   [210266, 221479, 14831, 200901, 656693, 891819],
   [528515, 178025, 188138, 411485, 217833, 907579],
   [195801, 663099, 477312, 395250, 655791, 820570],
   [933208, 789323, 350520, 855434, 491082, 874993],
   [251047, 543513, 529644, 218495, 351637, 608904],
   [963286, 793004, 650148, 881362, 904832, 5397],
   [431744, 438965, 44544, 834968, 330614, 451282],
   [234845, 328576, 388284, 339183, 206086, 600034],
   [512783, 961787, 959109, 632098, 910614, 912025],
   [454168, 743189, 834284, 955817, 72172, 523068],
   [696968, 720236, 341060, 54580, 45599, 549192],
   [272955, 318845, 700767, 426325, 895755, 843128],
   [992189, 332899, 272784, 19284, 73711, 434800],
   [154276, 639611, 924641, 587242, 358453, 548022],
   [21506, 450392, 515150, 32232, 650223, 849384],
   [316499, 513234, 958219, 843587, 125408, 836643],
   [538587, 261750, 732136, 30271, 893345, 270532],
   [987469, 708780, 446487, 968784, 734448, 788229],
   [353358, 135036, 249018, 565029, 740519, 250807],
   [810372, 656510, 472093, 225741, 420513, 202519],
   [848128, 551586, 513140, 956164, 483389, 404478],
   [292239, 297077, 934202, 468329, 872274, 992632],
   [828869, 534749, 716451, 405855, 164485, 531068],
   [130616, 757677, 284500, 438300, 957643, 725899],
   [503542, 640368, 381914, 847206, 134660, 762294],
   [653851, 646544, 436036, 944225, 310369, 392362],
   [539397, 27168, 697972, 209293, 992890, 8113],
   [902045, 171034, 194924, 620057, 2203, 557433],
   [802612, 85835, 380626, 492568, 238166, 961837],
   [466993, 647847, 113397, 15357, 928904, 166425],
   [892021, 869756, 681364, 129555, 394682, 745036],
   [60675, 869904, 757236, 220765, 615988, 754288],
   [31815, 340961, 455958, 529616, 840036, 365200],
   [834595, 603639, 745330, 85080, 184636, 238718],
   [575681, 250761, 874497, 870401, 854591, 968971],
   [300000, 700000, 400000, 100000, 258563, 932004],
   [200000, 900000, 700000, 200000, 375076, 154363],
   [400000, 400000, 600000, 900000, 579466, 524775]]

/-- `schoen_6_2_int.f`, rbfopt_test_functions.py:1597-1604. -/
def f_6_2_int : List ℤ :=
  [1096, 1324, 5582, 1580, 62, 2054, 5939, 24, 3998, 3959,
   2126, 9761, 1044, 5521, 4363, 8371, 2837, 7797, 3921, 858,
   8851, 4015, 3675, 6944, 6916, 9331, 5907, 2462, 3700, 543,
   7194, 952, 2760, 8291, 6136, 2428, 4246, 3206, 6661, 4792,
   4200, 9566, 2410, 211, 1698, 1781, 3944, -10000, -10000, -10000]

/-- `schoen_10_1_int.z`, rbfopt_test_functions.py:1642-1742. -/
def z_10_1_int : List (List ℕ) :=
  [[914871, 765230, 139426, 617466, 823635, 794003, 801171, 568811, 279434, 540422],
   [976983, 593277, 701115, 585262, 669106, 272906, 177127, 143389, 561181, 18744],
   [385208, 984106, 390066, 905970, 169600, 191291, 564157, 689910, 857031, 715390],
   [975998, 536904, 819333, 801793, 564454, 336124, 654190, 44197, 717416, 465807],
   [750519, 415284, 258927, 736115, 597744, 763716, 747691, 969633, 188117, 964954],
   [412888, 671756, 380214, 558595, 768370, 998320, 212183, 606757, 531315, 303569],
   [196682, 139879, 108608, 736975, 755971, 21390, 852398, 188596, 920133, 45012],
   [956270, 729258, 397664, 13146, 519861, 300011, 8396, 820346, 176841, 402298],
   [126432, 872346, 923581, 297492, 992744, 486525, 915493, 589980, 498242, 989945],
   [697409, 26641, 875467, 503039, 563285, 96769, 933643, 884419, 585825, 395465],
   [494783, 824300, 153326, 202651, 579815, 416954, 707624, 497959, 568876, 812841],
   [126963, 757337, 648583, 787445, 822586, 401155, 301350, 562707, 744074, 88372],
   [293611, 835864, 925111, 760322, 729456, 96840, 651466, 975836, 691353, 38384],
   [999250, 916829, 205699, 27241, 156956, 206598, 175242, 811219, 660192, 119865],
   [387978, 665180, 774376, 135223, 766238, 380668, 58279, 727506, 991527, 345759],
   [299341, 66231, 680305, 392230, 319985, 698292, 100236, 394973, 96232, 362943],
   [281548, 860858, 647870, 981650, 110777, 836484, 697387, 659942, 694425, 434991],
   [606706, 52287, 858208, 738885, 158495, 2367, 933796, 112986, 647308, 421573],
   [776505, 101364, 610406, 275033, 548409, 998967, 536743, 943903, 960993, 251672],
   [371347, 491122, 772374, 860206, 752131, 338591, 826739, 312111, 768881, 862719],
   [866886, 358220, 131205, 276334, 334111, 429525, 752197, 167524, 437764, 162916],
   [584246, 511215, 659647, 349220, 954428, 477982, 386041, 813944, 753530, 983276],
   [697327, 499835, 530487, 599958, 497257, 998852, 106262, 186978, 887481, 749174],
   [41611, 278918, 999095, 825221, 218320, 383711, 77041, 642061, 668906, 758298],
   [72437, 592862, 40655, 446330, 651659, 55738, 631924, 890039, 192989, 741054],
   [533886, 135079, 787647, 593408, 749228, 749045, 190386, 755508, 465321, 465156],
   [748843, 696419, 882124, 843895, 858057, 220107, 350310, 102947, 453576, 875940],
   [560231, 580247, 381834, 807535, 184636, 615702, 628408, 81783, 793384, 233639],
   [384827, 589138, 630013, 634506, 630712, 521293, 494486, 681700, 288512, 319808],
   [721978, 452289, 426726, 323106, 781584, 999325, 43670, 884560, 520936, 430684],
   [810388, 624041, 811624, 105973, 199807, 440644, 864152, 282280, 397116, 499932],
   [973889, 677797, 80137, 549098, 625445, 577342, 538642, 388039, 552273, 793807],
   [365176, 228017, 623500, 84450, 177343, 910108, 632719, 521458, 894843, 707893],
   [502069, 622312, 958019, 744999, 515695, 407885, 590739, 736542, 297555, 237955],
   [313835, 90014, 336274, 433171, 330864, 105751, 160367, 651934, 207260, 293577],
   [886072, 592935, 498116, 321835, 11216, 543911, 506579, 216779, 406812, 261349],
   [789947, 881332, 696597, 742955, 252224, 718157, 188217, 371208, 178640, 347720],
   [482759, 663618, 622706, 36170, 278854, 88147, 482808, 134824, 28828, 944537],
   [184705, 662346, 917194, 186490, 918392, 955111, 636015, 447595, 813716, 372839],
   [231741, 637199, 745257, 201568, 697485, 897022, 239791, 495219, 153831, 387172],
   [198061, 194102, 550259, 751804, 503973, 34252, 788267, 731760, 118338, 57247],
   [68470, 545180, 668845, 714932, 688014, 203845, 146138, 109039, 470214, 441797],
   [85180, 142394, 938665, 71422, 946796, 697832, 472400, 161384, 325715, 122550],
   [637672, 986961, 969438, 989508, 381318, 800871, 12035, 326007, 459124, 645374],
   [147210, 954608, 361146, 94699, 92327, 301664, 478447, 8274, 680576, 4184],
   [768792, 812618, 915766, 29070, 506944, 457816, 839167, 24706, 990756, 88779],
   [872678, 601536, 948347, 621023, 415621, 289340, 291338, 190461, 664007, 583513],
   [600000, 700000, 0, 355500, 294700, 300000, 500000, 500000, 759223, 508432],
   [700000, 0, 400000, 300586, 576927, 100000, 200000, 900000, 614178, 92903],
   [700000, 300000, 700000, 899419, 749499, 600000, 600000, 0, 973726, 168336]]

/-- `schoen_10_1_int.f`, rbfopt_test_functions.py:1743-1750. -/
def f_10_1_int : List ℤ :=
  [7991, 3968, 3703, 4002, 2397, 6788, 8689, 5644, 6816, 1530,
   7607, 5629, 4349, 5792, 2606, 885, 6013, 7548, 8948, 6728,
   6337, 9218, 432, 2862, 9455, 7160, 727, 6312, 6403, 4251,
   8258, 5558, 1369, 8057, 7865, 4000, 8564, 5480, 5108, 523,
   1116, 6866, 8882, 3154, 3339, 615, 7552, -10000, -10000, -10000]

/-- `schoen_10_2_int.z`, rbfopt_test_functions.py:1789-1889. -/
def z_10_2_int : List (List ℕ) :=
  [[131461, 965235, 46134, 983011, 719813, 827542, 662422, 570546, 578707, 13264],
   [68454, 682785, 582736, 434517, 310613, 869876, 993949, 629156, 590599, 356378],
   [632837, 961665, 15079, 378878, 805608, 685239, 528658, 752934, 717790, 374865],
   [286191, 912944, 400358, 902532, 324887, 850063, 483503, 764147, 147726, 159851],
   [303483, 754790, 90527, 653764, 164323, 402931, 593477, 448444, 711483, 113869],
   [57398, 302029, 596351, 565466, 694204, 974864, 323989, 298493, 859391, 238714],
   [139267, 214902, 608462, 297987, 499810, 578553, 548077, 208442, 46162, 246848],
   [680420, 783181, 828103, 475810, 680401, 188455, 15200, 650103, 762389, 63985],
   [409243, 600740, 302354, 588411, 436291, 294790, 701477, 994162, 433749, 535320],
   [77949, 530126, 869737, 387811, 705317, 632911, 442087, 82918, 441383, 591975],
   [622628, 54964, 20475, 145616, 163873, 321546, 282867, 743494, 750568, 732386],
   [538574, 66932, 225204, 290045, 613242, 529365, 384018, 946557, 974384, 425297],
   [108817, 850094, 886417, 161581, 82973, 506354, 589650, 638991, 45151, 688464],
   [917742, 365119, 484176, 173231, 210253, 303688, 992141, 23109, 977178, 535146],
   [183469, 198085, 511596, 275610, 753700, 437328, 986237, 28654, 767921, 997910],
   [484908, 759122, 577318, 359934, 935730, 617833, 770173, 311175, 4831, 157457],
   [634077, 236972, 16427, 261753, 349712, 245870, 412238, 523557, 985327, 94060],
   [477875, 803438, 496728, 848920, 497386, 938203, 279797, 287076, 395184, 980546],
   [450215, 193712, 975838, 103925, 77410, 709573, 253072, 311723, 885664, 204528],
   [557312, 815198, 97914, 539142, 826048, 130070, 49858, 223634, 76387, 831224],
   [927559, 324916, 563393, 209281, 344394, 953384, 298679, 890637, 966615, 380006],
   [26403, 997573, 479163, 379686, 687928, 832002, 214326, 348248, 73151, 62646],
   [726869, 911171, 961920, 874884, 216867, 76966, 776240, 495777, 963492, 425246],
   [357483, 486330, 759177, 748362, 889904, 350438, 232983, 823613, 792656, 441264],
   [875826, 359459, 214808, 425850, 493328, 456048, 523145, 504154, 90128, 472437],
   [813400, 808407, 427211, 902524, 210376, 490662, 915939, 169439, 78865, 485371],
   [877334, 982207, 679085, 486335, 940715, 585964, 289279, 694886, 172625, 201457],
   [141599, 476124, 762246, 67045, 411332, 813196, 134138, 302390, 856145, 349243],
   [346912, 82142, 787442, 857465, 371129, 448550, 967943, 775340, 943681, 656127],
   [619267, 547196, 470422, 141566, 584198, 952226, 196462, 629549, 685469, 824365],
   [14209, 789812, 836373, 186139, 493840, 710697, 910033, 368287, 865953, 140892],
   [482763, 72574, 26730, 143687, 739505, 419649, 13683, 662644, 785254, 234561],
   [821421, 844100, 153937, 671762, 290469, 631347, 591435, 498966, 43395, 176771],
   [404994, 496656, 951774, 497357, 715401, 23378, 493045, 342766, 117055, 698590],
   [985857, 831692, 423498, 215757, 341260, 790760, 941186, 716883, 62641, 582012],
   [676905, 280897, 800638, 898913, 735995, 592412, 433021, 432772, 874477, 112375],
   [377382, 118941, 529204, 419434, 673891, 74904, 129868, 819585, 220536, 353223],
   [233415, 136703, 487256, 777498, 901915, 612402, 778635, 436718, 484520, 641969],
   [273297, 670196, 344525, 669751, 180230, 530085, 393284, 326043, 260840, 364690],
   [931213, 676123, 912481, 898258, 1887, 408306, 917215, 496959, 287951, 562511],
   [47196, 780338, 895994, 88169, 552425, 130790, 308504, 232476, 187952, 105936],
   [343517, 356222, 416018, 450278, 487765, 40510, 592363, 771635, 577849, 315843],
   [527759, 529503, 210423, 756794, 892670, 339374, 445837, 363265, 432114, 942045],
   [560107, 110906, 115725, 761393, 969105, 921166, 455014, 593512, 111887, 217300],
   [463382, 635591, 329484, 573602, 492558, 474174, 371906, 850465, 467637, 261373],
   [33051, 422543, 294155, 699026, 846231, 47967, 686826, 480273, 463181, 345601],
   [285473, 723925, 202386, 671909, 685277, 993969, 415329, 155218, 233826, 88752],
   [0, 600000, 800000, 677718, 961189, 200000, 800000, 800000, 524970, 815489],
   [500000, 500000, 100000, 156163, 274566, 500000, 800000, 800000, 656166, 964211],
   [100000, 900000, 0, 178217, 408438, 200000, 100000, 200000, 51758, 906712]]

/-- `schoen_10_2_int.f`, rbfopt_test_functions.py:1890-1897. -/
def f_10_2_int : List ℤ :=
  [904, 8309, 527, 3752, 2897, 2441, 4702, 1117, 9689, 9034,
   9185, 8203, 4412, 6875, 8369, 110, 4545, 9293, 9526, 9372,
   8705, 2117, 3784, 3203, 7296, 4208, 2138, 7177, 2854, 5228,
   7483, 3710, 5012, 5686, 1119, 6452, 4862, 1570, 9685, 1376,
   1272, 9434, 4372, 1997, 4154, 9660, 3623, -10000, -10000, -10000]

/-- `schoen_10_1_cat.z`, rbfopt_test_functions.py:2115-2215. -/
def z_10_1_cat : List (List ℕ) :=
  [[914871, 765230, 139426, 617466, 823635, 794003, 801171, 568811, 279434, 540422],
   [976983, 593277, 701115, 585262, 669106, 272906, 177127, 143389, 561181, 18744],
   [385208, 984106, 390066, 905970, 169600, 191291, 564157, 689910, 857031, 715390],
   [975998, 536904, 819333, 801793, 564454, 336124, 654190, 44197, 717416, 465807],
   [750519, 415284, 258927, 736115, 597744, 763716, 747691, 969633, 188117, 964954],
   [412888, 671756, 380214, 558595, 768370, 998320, 212183, 606757, 531315, 303569],
   [196682, 139879, 108608, 736975, 755971, 21390, 852398, 188596, 920133, 45012],
   [956270, 729258, 397664, 13146, 519861, 300011, 8396, 820346, 176841, 402298],
   [126432, 872346, 923581, 297492, 992744, 486525, 915493, 589980, 498242, 989945],
   [697409, 26641, 875467, 503039, 563285, 96769, 933643, 884419, 585825, 395465],
   [494783, 824300, 153326, 202651, 579815, 416954, 707624, 497959, 568876, 812841],
   [126963, 757337, 648583, 787445, 822586, 401155, 301350, 562707, 744074, 88372],
   [293611, 835864, 925111, 760322, 729456, 96840, 651466, 975836, 691353, 38384],
   [999250, 916829, 205699, 27241, 156956, 206598, 175242, 811219, 660192, 119865],
   [387978, 665180, 774376, 135223, 766238, 380668, 58279, 727506, 991527, 345759],
   [299341, 66231, 680305, 392230, 319985, 698292, 100236, 394973, 96232, 362943],
   [281548, 860858, 647870, 981650, 110777, 836484, 697387, 659942, 694425, 434991],
   [606706, 52287, 858208, 738885, 158495, 2367, 933796, 112986, 647308, 421573],
   [776505, 101364, 610406, 275033, 548409, 998967, 536743, 943903, 960993, 251672],
   [371347, 491122, 772374, 860206, 752131, 338591, 826739, 312111, 768881, 862719],
   [866886, 358220, 131205, 276334, 334111, 429525, 752197, 167524, 437764, 162916],
   [584246, 511215, 659647, 349220, 954428, 477982, 386041, 813944, 753530, 983276],
   [697327, 499835, 530487, 599958, 497257, 998852, 106262, 186978, 887481, 749174],
   [41611, 278918, 999095, 825221, 218320, 383711, 77041, 642061, 668906, 758298],
   [72437, 592862, 40655, 446330, 651659, 55738, 631924, 890039, 192989, 741054],
   [533886, 135079, 787647, 593408, 749228, 749045, 190386, 755508, 465321, 465156],
   [748843, 696419, 882124, 843895, 858057, 220107, 350310, 102947, 453576, 875940],
   [560231, 580247, 381834, 807535, 184636, 615702, 628408, 81783, 793384, 233639],
   [384827, 589138, 630013, 634506, 630712, 521293, 494486, 681700, 288512, 319808],
   [721978, 452289, 426726, 323106, 781584, 999325, 43670, 884560, 520936, 430684],
   [810388, 624041, 811624, 105973, 199807, 440644, 864152, 282280, 397116, 499932],
   [973889, 677797, 80137, 549098, 625445, 577342, 538642, 388039, 552273, 793807],
   [365176, 228017, 623500, 84450, 177343, 910108, 632719, 521458, 894843, 707893],
   [502069, 622312, 958019, 744999, 515695, 407885, 590739, 736542, 297555, 237955],
   [313835, 90014, 336274, 433171, 330864, 105751, 160367, 651934, 207260, 293577],
   [886072, 592935, 498116, 321835, 11216, 543911, 506579, 216779, 406812, 261349],
   [789947, 881332, 696597, 742955, 252224, 718157, 188217, 371208, 178640, 347720],
   [482759, 663618, 622706, 36170, 278854, 88147, 482808, 134824, 28828, 944537],
   [184705, 662346, 917194, 186490, 918392, 955111, 636015, 447595, 813716, 372839],
   [231741, 637199, 745257, 201568, 697485, 897022, 239791, 495219, 153831, 387172],
   [198061, 194102, 550259, 751804, 503973, 34252, 788267, 731760, 118338, 57247],
   [68470, 545180, 668845, 714932, 688014, 203845, 146138, 109039, 470214, 441797],
   [85180, 142394, 938665, 71422, 946796, 697832, 472400, 161384, 325715, 122550],
   [637672, 986961, 969438, 989508, 381318, 800871, 12035, 326007, 459124, 645374],
   [147210, 954608, 361146, 94699, 92327, 301664, 478447, 8274, 680576, 4184],
   [768792, 812618, 915766, 29070, 506944, 457816, 839167, 24706, 990756, 88779],
   [872678, 601536, 948347, 621023, 415621, 289340, 291338, 190461, 664007, 583513],
   [641216, 700152, 80576, 355500, 294700, 338614, 563964, 528079, 759223, 508432],
   [738489, 77376, 429485, 300586, 576927, 185931, 231659, 954833, 614178, 92903],
   [729321, 318607, 768657, 899419, 749499, 623403, 671793, 52835, 973726, 168336]]

/-- `schoen_10_1_cat.f`, rbfopt_test_functions.py:2216-2222. -/
def f_10_1_cat : List ℤ :=
  [-10000, -10000, -10000, 7991, 3968, 3703, 4002, 2397, 6788, 8689,
   5644, 6816, 1530, 7607, 5629, 4349, 5792, 2606, 885, 6013,
   7548, 8948, 6728, 6337, 9218, 432, 2862, 9455, 7160, 727,
   6312, 6403, 4251, 8258, 5558, 1369, 8057, 7865, 4000, 8564,
   5480, 5108, 523, 1116, 6866, 8882, 3154, 3339, 615, 7552]

/-- `schoen_10_2_cat.z`, rbfopt_test_functions.py:2291-2391. -/
def z_10_2_cat : List (List ℕ) :=
  [[131461, 965235, 46134, 983011, 719813, 827542, 662422, 570546, 578707, 13264],
   [68454, 682785, 582736, 434517, 310613, 869876, 993949, 629156, 590599, 356378],
   [632837, 961665, 15079, 378878, 805608, 685239, 528658, 752934, 717790, 374865],
   [286191, 912944, 400358, 902532, 324887, 850063, 483503, 764147, 147726, 159851],
   [303483, 754790, 90527, 653764, 164323, 402931, 593477, 448444, 711483, 113869],
   [57398, 302029, 596351, 565466, 694204, 974864, 323989, 298493, 859391, 238714],
   [139267, 214902, 608462, 297987, 499810, 578553, 548077, 208442, 46162, 246848],
   [680420, 783181, 828103, 475810, 680401, 188455, 15200, 650103, 762389, 63985],
   [409243, 600740, 302354, 588411, 436291, 294790, 701477, 994162, 433749, 535320],
   [77949, 530126, 869737, 387811, 705317, 632911, 442087, 82918, 441383, 591975],
   [622628, 54964, 20475, 145616, 163873, 321546, 282867, 743494, 750568, 732386],
   [538574, 66932, 225204, 290045, 613242, 529365, 384018, 946557, 974384, 425297],
   [108817, 850094, 886417, 161581, 82973, 506354, 589650, 638991, 45151, 688464],
   [917742, 365119, 484176, 173231, 210253, 303688, 992141, 23109, 977178, 535146],
   [183469, 198085, 511596, 275610, 753700, 437328, 986237, 28654, 767921, 997910],
   [484908, 759122, 577318, 359934, 935730, 617833, 770173, 311175, 4831, 157457],
   [634077, 236972, 16427, 261753, 349712, 245870, 412238, 523557, 985327, 94060],
   [477875, 803438, 496728, 848920, 497386, 938203, 279797, 287076, 395184, 980546],
   [450215, 193712, 975838, 103925, 77410, 709573, 253072, 311723, 885664, 204528],
   [557312, 815198, 97914, 539142, 826048, 130070, 49858, 223634, 76387, 831224],
   [927559, 324916, 563393, 209281, 344394, 953384, 298679, 890637, 966615, 380006],
   [26403, 997573, 479163, 379686, 687928, 832002, 214326, 348248, 73151, 62646],
   [726869, 911171, 961920, 874884, 216867, 76966, 776240, 495777, 963492, 425246],
   [357483, 486330, 759177, 748362, 889904, 350438, 232983, 823613, 792656, 441264],
   [875826, 359459, 214808, 425850, 493328, 456048, 523145, 504154, 90128, 472437],
   [813400, 808407, 427211, 902524, 210376, 490662, 915939, 169439, 78865, 485371],
   [877334, 982207, 679085, 486335, 940715, 585964, 289279, 694886, 172625, 201457],
   [141599, 476124, 762246, 67045, 411332, 813196, 134138, 302390, 856145, 349243],
   [346912, 82142, 787442, 857465, 371129, 448550, 967943, 775340, 943681, 656127],
   [619267, 547196, 470422, 141566, 584198, 952226, 196462, 629549, 685469, 824365],
   [14209, 789812, 836373, 186139, 493840, 710697, 910033, 368287, 865953, 140892],
   [482763, 72574, 26730, 143687, 739505, 419649, 13683, 662644, 785254, 234561],
   [821421, 844100, 153937, 671762, 290469, 631347, 591435, 498966, 43395, 176771],
   [404994, 496656, 951774, 497357, 715401, 23378, 493045, 342766, 117055, 698590],
   [985857, 831692, 423498, 215757, 341260, 790760, 941186, 716883, 62641, 582012],
   [676905, 280897, 800638, 898913, 735995, 592412, 433021, 432772, 874477, 112375],
   [377382, 118941, 529204, 419434, 673891, 74904, 129868, 819585, 220536, 353223],
   [233415, 136703, 487256, 777498, 901915, 612402, 778635, 436718, 484520, 641969],
   [273297, 670196, 344525, 669751, 180230, 530085, 393284, 326043, 260840, 364690],
   [931213, 676123, 912481, 898258, 1887, 408306, 917215, 496959, 287951, 562511],
   [47196, 780338, 895994, 88169, 552425, 130790, 308504, 232476, 187952, 105936],
   [343517, 356222, 416018, 450278, 487765, 40510, 592363, 771635, 577849, 315843],
   [527759, 529503, 210423, 756794, 892670, 339374, 445837, 363265, 432114, 942045],
   [560107, 110906, 115725, 761393, 969105, 921166, 455014, 593512, 111887, 217300],
   [463382, 635591, 329484, 573602, 492558, 474174, 371906, 850465, 467637, 261373],
   [33051, 422543, 294155, 699026, 846231, 47967, 686826, 480273, 463181, 345601],
   [285473, 723925, 202386, 671909, 685277, 993969, 415329, 155218, 233826, 88752],
   [29705, 651519, 813239, 677718, 961189, 285385, 824635, 837670, 524970, 815489],
   [519627, 508274, 141067, 156163, 274566, 536322, 834749, 852042, 656166, 964211],
   [119675, 971352, 52983, 178217, 408438, 215091, 102098, 256312, 51758, 906712]]

/-- `schoen_10_2_cat.f`, rbfopt_test_functions.py:2392-2398. -/
def f_10_2_cat : List ℤ :=
  [-10000, -10000, -10000, 904, 8309, 527, 3752, 2897, 2441, 4702,
   1117, 9689, 9034, 9185, 8203, 4412, 6875, 8369, 110, 4545,
   9293, 9526, 9372, 8705, 2117, 3784, 3203, 7296, 4208, 2138,
   7177, 2854, 5228, 7483, 3710, 5012, 5686, 1119, 6452, 4862,
   1570, 9685, 1376, 1272, 9434, 4372, 1997, 4154, 9660, 3623]

end Rbfopt.SchoenData
