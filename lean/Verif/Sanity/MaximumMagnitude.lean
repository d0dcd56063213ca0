import Verif.Model.MaximumMagnitude
import Verif.Sanity.Recurrence

/-!
# The model of `maximum_magnitude.py` at `Float`, on the data of tests/maximum_magnitude

A check of the translation, not a proof.
-/

namespace Verif.Sanity.MaxMag

open Verif Verif.MaxMag

def mags : List Float := [7.4, 7.4, 7.2, 7.0, 7.0, 7.0, 6.9, 6.8, 6.6, 6.6, 6.6, 6.6, 6.5, 6.5, 6.5, 6.5, 6.4, 6.4, 6.4, 6.4, 6.4, 6.4, 6.3, 6.3, 6.3, 6.3, 6.3, 6.3, 6.3, 6.3, 6.3, 6.3, 6.3, 6.3, 6.2, 6.2, 6.2, 6.2, 6.1, 6.1, 6.1, 6.1, 6.1, 6.1, 6.1, 6.1, 6.1, 6.1, 6.1, 6.1, 6.0, 6.0, 6.0, 6.0, 6.0, 6.0, 6.0, 6.0, 6.0, 6.0, 6.0, 6.0, 6.0, 6.0, 6.0, 5.9, 5.9, 5.9, 5.9, 5.9, 5.9, 5.9, 5.9, 5.9, 5.9, 5.9, 5.9, 5.9, 5.9, 5.9, 5.9, 5.9, 5.9, 5.8, 5.8, 5.8, 5.8, 5.8, 5.8, 5.8, 5.8, 5.8, 5.8, 5.8, 5.8, 5.8, 5.8, 5.8, 5.8, 5.8]
def close (x y : Float) (tol : Float := 5e-6) : Bool := (x - y).abs ≤ tol
def okClose (x : Except PyErr Float) (y : Float) : Bool := match x with | .ok v => close v y | _ => false

/-- tests/maximum_magnitude/data/exponentially_spaced_points.csv -/
def spaced : List Float := [5.8, 5.8760909, 5.9467991, 6.0128362, 6.0747812, 6.1331118, 6.1882266, 6.2404619, 6.2901035, 6.337397, 6.3825544, 6.4257604, 6.4671767, 6.5069458, 6.5451935, 6.5820321, 6.6175617, 6.6518721, 6.6850443, 6.7171513, 6.7482594, 6.778429, 6.8077149, 6.8361675, 6.863833, 6.8907536, 6.9169684, 6.9425135, 6.9674223, 6.9917258, 7.0154525, 7.0386293, 7.0612811, 7.0834311, 7.1051011, 7.1263115, 7.1470813, 7.1674285, 7.1873699, 7.2069215, 7.2260981, 7.2449138, 7.2633821, 7.2815154, 7.2993258, 7.3168245, 7.3340223, 7.3509293, 7.3675552, 7.3839092, 7.4]
/-- tests/maximum_magnitude/data/gauss_cdf.csv: arguments -3, -2.95, ..., 3 -/
def cdfs : List Float := [0.0236282, 0.0274482, 0.031781, 0.0366685, 0.0421491, 0.0482569, 0.0550191, 0.0624545, 0.0705716, 0.0793668, 0.0888229, 0.0989085, 0.109577, 0.1207668, 0.1324022, 0.144395, 0.156646, 0.1690483, 0.1814899, 0.1938574, 0.2060394, 0.2179296, 0.2294305, 0.2404557, 0.2509319, 0.2608011, 0.2700208, 0.278565, 0.2864232, 0.2936002, 0.3001145, 0.3059972, 0.3112897, 0.316043, 0.3203148, 0.3241688, 0.3276724, 0.3308962, 0.3339122, 0.3367931, 0.3396121, 0.3424415, 0.3453536, 0.3484196, 0.3517105, 0.3552969, 0.3592495, 0.3636398, 0.3685409, 0.3740277, 0.3801784, 0.3870751, 0.3948051, 0.4034624, 0.4131485, 0.4239746, 0.4360631, 0.4495494, 0.4645847, 0.4813381, 0.5, 0.5186619, 0.5354153, 0.5504506, 0.5639369, 0.5760254, 0.5868515, 0.5965376, 0.6051949, 0.6129249, 0.6198216, 0.6259723, 0.6314591, 0.6363602, 0.6407505, 0.6447031, 0.6482895, 0.6515804, 0.6546464, 0.6575585, 0.6603879, 0.6632069, 0.6660878, 0.6691038, 0.6723276, 0.6758312, 0.6796852, 0.683957, 0.6887103, 0.6940028, 0.6998855, 0.7063998, 0.7135768, 0.721435, 0.7299792, 0.7391989, 0.7490681, 0.7595443, 0.7705695, 0.7820704, 0.7939606, 0.8061426, 0.8185101, 0.8309517, 0.843354, 0.855605, 0.8675978, 0.8792332, 0.890423, 0.9010915, 0.9111771, 0.9206332, 0.9294284, 0.9375455, 0.9449809, 0.9517431, 0.9578509, 0.9633315, 0.968219, 0.9725518, 0.9763718]

#guard okClose (hSmooth mags) 0.11
#guard (expSpaced (5.8 : Float) 7.4 51.0).length = 51 && (List.zipWith (close · · 1e-6) (expSpaced (5.8 : Float) 7.4 51.0) spaced).all id
#guard cdfs.length = 121 && (List.zipWith (fun i y => close (gaussCdf (-3.0 + 0.05 * i.toFloat) 0.0 1.0) y 1e-6) (List.range 121) cdfs).all id
#guard okClose (intFunc (expSpaced (5.8 : Float) 7.4 51.0) mags 0.11 100.0) 0.08461
#guard match kijko mags (mags.map fun _ => 0.1) 100 51.0 0.01 1000 1000 with | some (.ok (m, s)) => close m 7.50755 && close s 0.14686 | _ => false
#guard okClose (cumulativeMoment Sanity.Recurrence.events) 7.48473

end Verif.Sanity.MaxMag
