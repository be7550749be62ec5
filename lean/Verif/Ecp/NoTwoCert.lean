import Verif.Ecp.NoTwo
/- Certificates: for the ROM curves with `A = -3`, the inverse of `X^p - X` modulo the cubic, keyed by `p`. Generated. -/
namespace Verif.Ecp

def cubicCerts : List (Nat × Nat × Nat × Nat) := [
  (0xF1FD178C0B3AD58F10126DE8CE42435B3961ADBCABC8CA6DE8FCF353D86E9C03, 0x417243CD79C7844AF39D931A5F11F543D7CFD485A1BF467B08816C4F19752E7A, 0xDCCB67B8D7840AA9812B7EDB38A0DBAE2FED9FB684F5EB18F032A32F50BB3258, 0x3174E3399442D9F10287B8801DA5B86ED4732AE1B7B934E912F3121743B8D61B),
  (0xA9FB57DBA1EEA9BC3E660A909D838D726E3BF623D52620282013481D1F6E5377, 0x7C040D51910B65E8A0C07DEB5410FC3DE1C50F13531D6DBAB9F5AC754A8FD257, 0x878D931BAAD71D475D97C144A9284824E4ECE9628D9B942CE27A09AFBBB95B7A, 0x4C9F11D0194880836122E455B7BD391D728A9DF14F01A01607048800BAFC6FF1),
  (0xFFFFFFFF00000001000000000000000000000000FFFFFFFFFFFFFFFFFFFFFFFF, 0xA969487079F1744798BF0DE6FDED091B66E9D328EB0645FE5D979D1339B7F47F, 0xA4A08891884100C13323460107A8D28EEDE4387FA3E6E9BFEBEC9F6D72D0B5CC, 0x4CDE11CF86CB876CD59CF0115813C55AF0ECD3CDA667D98BB9A347A56AA74A6D),
  (0xFFFFFFFFFFFFFFFFFFFFFFFFFFFFFFFFFFFFFFFFFFFFFFFFFFFFFFFFFFFFFFFEFFFFFFFF0000000000000000FFFFFFFF, 0x95ADEC811EBE8D4B9E2B41150D78F91A619189A415583B8F5E01888DA3353B61765CDE8CD6C12846310C3F0C10AAE682, 0x3581B884702FB0931C541A5CACEFBE3BEA864DB86E01E048170560418DCA3AA8689F246D9D11CCD2E145532DD48491AF, 0x4EFCEBFDCCD7CB25D1B864228F0C32D3A83EC026134AE4753BDFF5D3F1FA20B278B31DC3487BEB792024FE436F36B43A),
  (0x1FFFFFFFFFFFFFFFFFFFFFFFFFFFFFFFFFFFFFFFFFFFFFFFFFFFFFFFFFFFFFFFFFFFFFFFFFFFFFFFFFFFFFFFFFFFFFFFFFFFFFFFFFFFFFFFFFFFFFFFFFFFFFFFFFF, 0x19E72E5691AF1C1F1D3F2591C5AD09EC28F1C524714CA75DB089CDB9151CA2289840D94CE56793C78B66EF3540572CC405CDC465D82E1A6F69D82C27053FF163AA6, 0xC15E4C9246EF30C73585FC1A490DF170EF8E757F1F37E7A6CDE9349746D8493EBB31A91AEA6F35B910D943C96BA37D442EA7BB6D45C60EC76150EDBA53D1FC8264, 0x124521C5A63D25338751EA837916053183423F151D92BF4710EF90DF9F8CCDF063F99AF3AB0F0BD1843A16AFC69F16B49B9890C324999F97E8E4650532AEA382F92),
  (0xFFFFFFFFFFFFFFFFFFFFFFFFFFFFFFFFFFFFFFFFFFFFFFFFFFFFFFFFFFFFFF43, 0x99D5D7AAD11F575A017EFBD99C4C14B34F9FCEA99702187A607E5E2BFCE51115, 0x27FACE14E1ABFD9CABDD50F5A83FFF6FC179958DA819509A95B241E110933AEB, 0x5B88ACC83F3E7458EDB4EC535AA8D0336E19F9AEC9AE0120F07DABF92D7DA23B),
  (0xFFFFFFFFFFFFFFFFFFFFFFFFFFFFFFFFFFFFFFFFFFFFFFFFFFFFFFFFFFFFFFFFFFFFFFFFFFFFFFFFFFFFFFFFFFFFFEC3, 0xFAB4CD269E788D232D3F539F1FDA21B46EA0C459098534EF4FC39DF9B1A77E3C963E83EB1BDE9099688C42E7194EB432, 0x3D6F4A0FF1730ADE5223B0B71ED34DB0CA5B8B5BEAC22D205FB082B19384CE7F7055F108AB2D6FA2C7456954A525E48F, 0x5A709E818ACCF7A65BDCA5599EE4CD83BE0159FECEA753E5E77329EBAA533662A53D9862A535C6CEB0AF33D73074A6C5),
  (0xFFFFFFFFFFFFFFFFFFFFFFFFFFFFFFFFFFFFFFFFFFFFFFFFFFFFFFFFFFFFFFFFFFFFFFFFFFFFFFFFFFFFFFFFFFFFFFFFFFFFFFFFFFFFFFFFFFFFFFFFFFFFFDC7, 0x50947EF0EE7F523791ACE78586342A01E3D4F2999E4B5FA3EE523F1E05437DCC1F88E0614947922A3E40C0D984E430009217818BFE61C20F7E6F987F1F251D33, 0x5C218304BD791286DBE8837DD75D6D05F9A7A18A9E418555BEC95E36E1D0D00E5F56713C0ED8D015CE18CC0C1E2FAD5CB3B7C18AFAA517CC28D3460441B7A012, 0x18B265C09F4284700BC38E25DF7338B8BF88BEAED0AEF232292B4CD5E12542439441699A931DAD3556F14B90B65283CBB0B11DAD3322F77EE5766A603CD13937)]

end Verif.Ecp
