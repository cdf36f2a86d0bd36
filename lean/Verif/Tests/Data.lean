/-!
# The files of /repo/datasets/test used by the unit tests of the project

Copied character by character (`ItalyPowerDemand_DATA`: the first five lines).
-/

namespace Genex.Tests

/-- datasets/test/test_10_20_space.txt -/
def test1020Space : String :=
  "3.029296875 4.687500000 4.183593750 2.482421875 3.425781250 2.656250000 3.400390625 4.386718750 0.119262695 3.822265625 1.722656250 0.737304688 0.660156250 1.327148438 2.398437500 4.722656250 1.928710938 1.555664062 2.439453125 2.537109375\n" ++
  "0.448730469 3.906250000 2.414062500 0.498291016 4.980468750 2.267578125 1.716796875 1.366210938 2.757812500 4.394531250 1.178710938 2.580078125 2.820312500 2.019531250 3.392578125 2.689453125 1.566406250 2.558593750 0.184814453 0.352783203\n" ++
  "1.536132812 2.080078125 0.497070312 3.812500000 4.234375000 0.742675781 1.136718750 3.015625000 0.688964844 2.113281250 1.889648438 4.667968750 3.164062500 3.468750000 1.049804688 1.960937500 1.512695312 0.766113281 3.964843750 2.765625000\n" ++
  "4.957031250 0.806152344 3.177734375 1.764648438 1.876953125 0.130981445 4.285156250 1.524414062 2.263671875 2.820312500 2.339843750 0.796875000 2.681640625 2.617187500 0.512695312 3.208984375 2.158203125 3.486328125 2.544921875 1.200195312\n" ++
  "4.445312500 2.865234375 1.997070312 4.511718750 1.668945312 1.046875000 0.977050781 3.611328125 0.092590332 0.491943359 4.679687500 4.101562500 1.702148438 3.361328125 2.677734375 0.477294922 2.880859375 0.297851562 0.312255859 4.316406250\n" ++
  "2.927734375 4.207031250 2.615234375 0.299804688 4.140625000 4.480468750 1.173828125 0.239624023 2.052734375 4.031250000 2.851562500 4.285156250 3.152343750 1.097656250 0.467773438 4.570312500 0.435791016 2.037109375 4.937500000 3.298828125\n" ++
  "0.352294922 4.445312500 3.199218750 1.363281250 0.888671875 2.761718750 4.449218750 1.005859375 2.539062500 2.183593750 4.664062500 4.734375000 3.119140625 2.484375000 3.896484375 1.761718750 4.781250000 3.462890625 3.279296875 2.068359375\n" ++
  "2.619140625 3.378906250 1.897460938 3.783203125 1.872070312 2.917968750 3.113281250 2.886718750 2.412109375 2.373046875 1.265625000 2.250000000 1.803710938 1.825195312 0.295410156 2.132812500 2.699218750 2.244140625 3.998046875 0.891113281\n" ++
  "0.995605469 1.943359375 0.035858154 1.948242188 0.453857422 2.425781250 0.512207031 3.216796875 3.394531250 4.343750000 4.468750000 4.164062500 3.160156250 1.434570312 0.758789062 4.585937500 3.638671875 1.597656250 0.774414062 1.435546875\n" ++
  "1.089843750 2.771484375 1.714843750 2.599609375 1.776367188 3.947265625 2.242187500 3.197265625 1.046875000 2.689453125 1.283203125 4.761718750 4.144531250 0.770507812 2.515625000 4.527343750 4.062500000 2.132812500 0.539062500 0.002822876\n"

/-- datasets/test/test_15_20_comma.csv -/
def test1520Comma : String :=
  "4.122284712, 2.642694156, 2.267445829, 3.012960482, 0.877346514, 0.192970234, 0.416086970, 2.045700883, 4.924768744, 2.186620001, 3.289510186, 3.663959882, 2.458741148, 4.975368223, 0.558014864, 4.111509199, 0.177558983, 4.064747224, 2.540487474, 2.684802835\n" ++
  "1.941002480, 0.377110502, 4.442795745, 3.625555863, 0.688905804, 3.291139278, 1.451449545, 1.650417155, 1.894261315, 1.573211707, 0.435439102, 4.132569038, 2.748652428, 1.166610643, 3.770790371, 4.746116784, 1.078698076, 3.685701544, 0.039411967, 2.818041875\n" ++
  "1.751672006, 0.764444180, 1.384354487, 3.122753192, 0.582285678, 2.571794087, 0.306118391, 4.809202779, 3.564413660, 0.809119732, 1.539174183, 3.520975054, 0.590200312, 3.427620305, 4.606130225, 1.523371261, 3.705777687, 4.311266020, 2.935229011, 1.414083146\n" ++
  "1.967038431, 3.975296837, 4.485292254, 4.335935770, 2.003694442, 3.051436852, 4.514397198, 1.837967547, 3.001269561, 2.165654067, 0.896949920, 3.572440396, 2.343993135, 0.745351526, 3.472374949, 0.055602402, 0.174093334, 4.586289179, 4.718368791, 0.866637934\n" ++
  "2.614153401, 3.747913864, 3.443568797, 1.742302237, 2.469199484, 2.629437577, 4.454665205, 1.419621577, 0.116489989, 3.883836696, 4.796621941, 0.422555401, 3.255261390, 2.543652958, 1.351397330, 4.290953362, 3.484125111, 2.098783353, 4.784761041, 3.368225605\n" ++
  "2.572167911, 3.046061527, 1.842522752, 0.910854299, 1.087691018, 4.158677863, 0.030552048, 3.183228993, 4.219995528, 3.198073608, 4.833081943, 4.701991022, 4.259263173, 3.437824942, 2.570626220, 3.764037892, 3.820281865, 2.711357760, 3.513548079, 2.293431633\n" ++
  "1.925151459, 4.671444248, 0.105495835, 1.876542330, 4.241065219, 3.175604510, 2.714660963, 2.563016860, 3.661434540, 1.183936455, 3.189484637, 3.166743630, 3.158531609, 2.017360913, 0.931423897, 2.320142408, 4.158681168, 3.820959720, 4.898238177, 2.618595197\n" ++
  "2.780563613, 3.187142085, 3.097592874, 4.231182238, 3.388813743, 3.029884259, 2.547264299, 0.993795949, 3.647138648, 4.645683636, 3.184525333, 3.613194244, 4.792806027, 1.147854120, 3.666595015, 4.089227879, 1.430912421, 1.178792772, 4.902721256, 3.067594190\n" ++
  "2.550567117, 0.850801270, 3.877039564, 4.412596537, 2.671385937, 3.808209084, 3.590159665, 1.730207033, 0.715236618, 1.838577435, 4.048661612, 0.876884759, 1.909083918, 0.574842193, 0.892263053, 0.757077835, 3.211615090, 1.267984803, 0.276297573, 1.723634213\n" ++
  "0.114346528, 4.165603823, 1.759070414, 2.563863627, 3.290159756, 1.506795301, 2.066857823, 2.901668075, 2.730276563, 2.374948114, 3.026564706, 4.799133887, 3.678799424, 1.827810286, 3.313527040, 1.512737552, 4.418832052, 0.327047368, 1.042792501, 1.102982453\n" ++
  "3.337508161, 4.540451280, 3.330900128, 1.596059608, 4.701666576, 3.739478793, 0.266602910, 0.684267389, 1.713688611, 4.723550389, 4.067578454, 1.700634586, 1.062921835, 3.902907051, 2.495560475, 1.491590168, 1.874249585, 4.204375009, 4.618649105, 3.188538508\n" ++
  "1.972221463, 3.009670326, 0.550739048, 1.215496692, 4.717502352, 4.628084791, 1.418432969, 2.152649855, 0.413339174, 1.492931138, 1.000202851, 0.076715136, 3.192071752, 1.957393095, 1.860394467, 0.887406740, 2.988545571, 4.893569673, 4.774883548, 4.905543598\n" ++
  "0.323152689, 3.726476788, 0.652121951, 3.738269118, 2.980376326, 3.736765390, 4.066230989, 3.246080486, 2.494772548, 3.748183274, 4.068107478, 1.281647528, 3.887333930, 0.593329494, 2.412881605, 4.414463209, 3.256983301, 1.636912065, 1.195164368, 1.775540143\n" ++
  "1.923184514, 3.448540507, 1.882612697, 1.230314085, 2.439830150, 1.563219836, 3.881192607, 0.618417853, 3.733348888, 3.286753192, 0.560560128, 0.436101493, 4.160948301, 3.150375695, 2.660583862, 0.336083969, 1.730326098, 1.988312471, 3.740666135, 0.157399649\n" ++
  "3.818802258, 1.157381104, 2.101805984, 0.933204543, 2.685230012, 1.519041697, 2.040362260, 3.619504341, 0.800198169, 3.100319563, 3.999047657, 4.581203986, 1.674959379, 2.148230969, 0.237805515, 3.746350514, 0.400772914, 0.016435853, 0.927460521, 0.575529354\n"

/-- datasets/test/test_3_10_space.txt -/
def test310Space : String :=
  "1.0 2.0 3.0 4.0 5.0 6.0 7.0 8.0 9.0 10.0\n" ++
  "1.0 2.0 3.0 4.0 5.0 6.0 7.0 8.0 9.0 11.0\n" ++
  "11.0 12.0 13.0 14.0 15.0 16.0 17.0 18.0 19.0 10.0\n"

/-- datasets/test/test_3_11_space.txt -/
def test311Space : String :=
  "1.0 2.0 3.0 4.0 5.0 6.0 7.0 8.0 9.0 10.0 11.0\n" ++
  "1.0 2.0 3.0 4.0 5.0 6.0 7.0 8.0 9.0 11.0 11.0\n" ++
  "11.0 12.0 13.0 14.0 15.0 16.0 17.0 18.0 19.0 20.0 21.0\n"

/-- datasets/test/test_3_uneven_space.txt -/
def test3UnevenSpace : String :=
  "1.0 2.0 3.0 4.0 5.0 6.0 7.0 8.0\n" ++
  "1.0 2.0 3.0 4.0 5.0 6.0 7.0 8.0 9.0 11.0\n" ++
  "11.0 12.0 13.0 14.0 15.0 16.0 17.0 18.0 19.0 10.0\n"

/-- datasets/test/test_5_10_comma_with_names.txt -/
def test510CommaWithNames : String :=
  "alice alice, 1.0, 2.0, 3.0, 4.0, 5.0, 6.0, 7.0, 8.0, 9.0, 10.0\n" ++
  "bob bob, 1.0, 1.0, 2.0, 2.0, 3.0, 3.0, 4.0, 4.0, 5.0, 5.0\n" ++
  "charles charles, 2.0, 3.0, 4.0, 5.0, 6.0, 7.0, 8.0, 9.0, 10.0, 11.0\n" ++
  "david david, 10.0, 9.0, 8.0, 7.0, 6.0, 5.0, 4.0, 3.0, 2.0, 1.0\n" ++
  "emma emma, 9.0, 9.0, 8.0, 7.0, 6.0, 5.0, 4.0, 3.0, 2.0, 1.0\n"

/-- datasets/test/test_5_10_space.txt -/
def test510Space : String :=
  "1.0 2.0 3.0 4.0 5.0 6.0 7.0 8.0 9.0 10.0\n" ++
  "1.0 1.0 2.0 2.0 3.0 3.0 4.0 4.0 5.0 5.0\n" ++
  "2.0 3.0 4.0 5.0 6.0 7.0 8.0 9.0 10.0 11.0\n" ++
  "10.0 9.0 8.0 7.0 6.0 5.0 4.0 3.0 2.0 1.0\n" ++
  "9.0 9.0 8.0 7.0 6.0 5.0 4.0 3.0 2.0 1.0\n"

/-- datasets/test/test_5_10_space_with_names.txt -/
def test510SpaceWithNames : String :=
  "1 alice 1.0 2.0 3.0 4.0 5.0 6.0 7.0 8.0 9.0 10.0\n" ++
  "2 bob 1.0 1.0 2.0 2.0 3.0 3.0 4.0 4.0 5.0 5.0\n" ++
  "3 charles 2.0 3.0 4.0 5.0 6.0 7.0 8.0 9.0 10.0 11.0\n" ++
  "4 david 10.0 9.0 8.0 7.0 6.0 5.0 4.0 3.0 2.0 1.0\n" ++
  "5 emma 9.0 9.0 8.0 7.0 6.0 5.0 4.0 3.0 2.0 1.0\n"

/-- datasets/test/test_group_5_10_different_space.txt -/
def testGroup510DifferentSpace : String :=
  "1.0 2.0 3.0 4.0 5.0 6.0 7.0 8.0 9.0 10.0\n" ++
  "1.0 2.0 3.0 4.0 5.0 6.0 7.0 8.0 9.0 10.0\n" ++
  "1.0 2.0 3.0 4.0 5.0 6.0 7.0 8.0 9.0 10.0\n" ++
  "12.0 11.0 10.0 9.0 8.0 7.0 6.0 5.0 4.0 3.0\n" ++
  "12.0 11.0 10.0 9.0 8.0 7.0 6.0 5.0 4.0 3.0\n"

/-- datasets/test/test_group_5_10_space.txt -/
def testGroup510Space : String :=
  "1.0 2.0 3.0 4.0 5.0 6.0 7.0 8.0 9.0 10.0\n" ++
  "1.0 2.0 3.0 4.0 5.0 6.0 7.0 8.0 9.0 10.0\n" ++
  "1.0 2.0 3.0 4.0 5.0 6.0 7.0 8.0 9.0 10.0\n" ++
  "1.0 2.0 3.0 4.0 5.0 6.0 7.0 8.0 9.0 10.0\n" ++
  "1.0 2.0 3.0 4.0 5.0 6.0 7.0 8.0 9.0 10.0\n"

/-- datasets/test/test_text_only.txt -/
def testTextOnly : String :=
  "text text text text text text text text text text text text text text text text text text\n" ++
  "text text text text text text text text text text text text text text text text text text"

/-- datasets/test/very_big_value.txt -/
def veryBigValue : String :=
  "1758174678357875875892173985731285781235798231578312758758947328686445891823531728574896738758476342678237582374589423758432758947358234758237485728345783257894275928375842759843275892437894718577248921735846378671857832915794387859842758973598172835789375893217583472958735897231895782319578129375891275892317489732148712895784375893758932748534728957432957834275832754395749823578923475893175872385723157894357834276948327624375892347583284573482957934253285"

/-- datasets/test/ItalyPowerDemand_DATA -/
def italyPowerDemandData : String :=
  "0.503995 0.351198 0.293899 0.217502 0.207955 0.236597 0.284349 0.188859 0.2748 0.465796 0.589944 0.618589 0.523095 0.456246 0.379848 0.360748 0.30345 0.293899 0.341649 0.418047 0.561294 0.819141 0.761838 0.647249 \n" ++
  "0.420832 0.227648 0.221335 0.139451 0.120549 0.133139 0.164648 0.240237 0.296939 0.504828 0.637121 0.643416 0.61822 0.555227 0.536327 0.511128 0.530028 0.548927 0.48593 0.49223 0.48593 0.435532 0.599318 0.530028 \n" ++
  "0.441832 0.420832 0.239833 0.202768 0.184253 0.147205 0.161096 0.184253 0.16572 0.286138 0.466759 0.591805 0.619591 0.628857 0.554755 0.57791 0.57791 0.610325 0.614967 0.559385 0.531598 0.485285 0.429709 0.411184 \n" ++
  "0.466759 0.401922 0.420832 0.472046 0.363881 0.26555 0.226223 0.196719 0.304883 0.26555 0.334382 0.216377 0.363881 0.521214 0.531046 0.531046 0.403214 0.363881 0.363881 0.304883 0.324548 0.324548 0.491713 0.83588 \n" ++
  "0.776871 0.737538 0.580214 0.420832 0.277599 0.197334 0.145377 0.135934 0.131222 0.17372 0.239833 0.338985 0.560916 0.669527 0.650643 0.655355 0.612857 0.51842 0.542029 0.51842 0.513697 0.466478 0.442867 0.457034 \n"

end Genex.Tests
