import Verif.Model.Basic
/-!
The attribute types of RFC 4512, 4519, 4524, 2798 and of the NIS netgroup schema (RFC 2307), by the equality rule they have, a type without one of its own having that of its
supertype, and those that cannot be compared. Written out by a script that reads the shipped texts on its own and follows the supertypes, and reviewed against the RFCs. (As far as remembered,
the RFCs give none to the root DSE attributes `namingContexts`, `altServer`, `supportedControl`, `supportedExtension`, `supportedLDAPVersion`, `supportedSASLMechanisms`; laurelin gives them
the ones listed here.)
-/
namespace Laurelin.Spec.BaseSchema
open Laurelin

/-- equality rule and the attribute types it applies to -/
def equality : List (Str × List Str) := [
  (str "distinguishedNameMatch", [str "aliasedObjectName", str "creatorsName", str "modifiersName", str "subschemaSubentry", str "namingContexts", str "distinguishedName", str "member", str "owner", str "roleOccupant", str "seeAlso", str "associatedName", str "documentAuthor", str "manager", str "secretary"]),
  (str "objectIdentifierMatch", [str "objectClass", str "structuralObjectClass", str "supportedControl", str "supportedExtension", str "supportedFeatures"]),
  (str "generalizedTimeMatch", [str "createTimestamp", str "modifyTimestamp"]),
  (str "integerMatch", [str "governingStructureRule", str "supportedLDAPVersion"]),
  (str "objectIdentifierFirstComponentMatch", [str "objectClasses", str "attributeTypes", str "matchingRules", str "matchingRuleUse", str "ldapSyntaxes", str "dITContentRules", str "nameForms"]),
  (str "integerFirstComponentMatch", [str "dITStructureRules"]),
  (str "caseExactMatch", [str "altServer", str "labeledURI", str "nisNetgroupTriple"]),
  (str "caseIgnoreMatch", [str "supportedSASLMechanisms", str "businessCategory", str "c", str "cn", str "description", str "destinationIndicator", str "dnQualifier", str "generationQualifier", str "givenName", str "houseIdentifier", str "initials", str "l", str "name", str "o", str "ou", str "physicalDeliveryOfficeName", str "postalCode", str "postOfficeBox", str "serialNumber", str "sn", str "st", str "street", str "title", str "uid", str "carLicense", str "departmentNumber", str "displayName", str "employeeNumber", str "employeeType", str "preferredLanguage", str "buildingName", str "co", str "documentIdentifier", str "documentLocation", str "documentPublisher", str "documentTitle", str "documentVersion", str "drink", str "host", str "info", str "organizationalStatus", str "personalTitle", str "roomNumber", str "uniqueIdentifier", str "userClass"]),
  (str "caseIgnoreIA5Match", [str "dc", str "associatedDomain", str "mail"]),
  (str "numericStringMatch", [str "internationalISDNNumber", str "x121Address"]),
  (str "caseIgnoreListMatch", [str "postalAddress", str "registeredAddress", str "homePostalAddress"]),
  (str "telephoneNumberMatch", [str "telephoneNumber", str "homePhone", str "mobile", str "pager"]),
  (str "uniqueMemberMatch", [str "uniqueMember"]),
  (str "octetStringMatch", [str "userPassword", str "audio", str "photo"]),
  (str "bitStringMatch", [str "x500UniqueIdentifier"]),
  (str "caseExactIA5Match", [str "memberNisNetgroup"])]

/-- attribute types without an equality rule -/
def noEquality : List Str := [str "enhancedSearchGuide", str "facsimileTelephoneNumber", str "preferredDeliveryMethod", str "searchGuide", str "teletexTerminalIdentifier", str "telexNumber", str "jpegPhoto", str "userSMIMECertificate", str "userPKCS12", str "userCertificate"]

/-- LDAP syntax, by the last number of its OID, and the attribute types that have it, again following the supertypes -/
def syntaxes : List (Str × List Str) := [
  (str "3", [str "attributeTypes"]),
  (str "5", [str "userSMIMECertificate", str "userPKCS12", str "photo"]),
  (str "6", [str "x500UniqueIdentifier"]),
  (str "8", [str "userCertificate"]),
  (str "11", [str "c"]),
  (str "12", [str "aliasedObjectName", str "creatorsName", str "modifiersName", str "subschemaSubentry", str "namingContexts", str "distinguishedName", str "member", str "owner", str "roleOccupant", str "seeAlso", str "associatedName", str "documentAuthor", str "manager", str "secretary"]),
  (str "14", [str "preferredDeliveryMethod"]),
  (str "15", [str "supportedSASLMechanisms", str "businessCategory", str "cn", str "description", str "generationQualifier", str "givenName", str "houseIdentifier", str "initials", str "l", str "name", str "o", str "ou", str "physicalDeliveryOfficeName", str "postalCode", str "postOfficeBox", str "sn", str "st", str "street", str "title", str "uid", str "carLicense", str "departmentNumber", str "displayName", str "employeeNumber", str "employeeType", str "preferredLanguage", str "labeledURI", str "co", str "documentPublisher", str "buildingName", str "documentIdentifier", str "documentLocation", str "documentTitle", str "documentVersion", str "drink", str "host", str "organizationalStatus", str "personalTitle", str "roomNumber", str "uniqueIdentifier", str "userClass", str "info"]),
  (str "16", [str "dITContentRules"]),
  (str "17", [str "dITStructureRules"]),
  (str "21", [str "enhancedSearchGuide"]),
  (str "22", [str "facsimileTelephoneNumber"]),
  (str "24", [str "createTimestamp", str "modifyTimestamp"]),
  (str "25", [str "searchGuide"]),
  (str "26", [str "altServer", str "dc", str "associatedDomain", str "memberNisNetgroup", str "mail"]),
  (str "27", [str "governingStructureRule", str "supportedLDAPVersion"]),
  (str "28", [str "jpegPhoto"]),
  (str "30", [str "matchingRules"]),
  (str "31", [str "matchingRuleUse"]),
  (str "34", [str "uniqueMember"]),
  (str "35", [str "nameForms"]),
  (str "36", [str "internationalISDNNumber", str "x121Address"]),
  (str "37", [str "objectClasses"]),
  (str "38", [str "objectClass", str "structuralObjectClass", str "supportedControl", str "supportedExtension", str "supportedFeatures"]),
  (str "40", [str "userPassword", str "audio"]),
  (str "41", [str "postalAddress", str "registeredAddress", str "homePostalAddress"]),
  (str "44", [str "destinationIndicator", str "dnQualifier", str "serialNumber"]),
  (str "50", [str "telephoneNumber", str "homePhone", str "mobile", str "pager"]),
  (str "51", [str "teletexTerminalIdentifier"]),
  (str "52", [str "telexNumber"]),
  (str "54", [str "ldapSyntaxes"])]

/-- attribute types of netgroup triples -/
def triples : List Str := [str "nisNetgroupTriple"]

/-- attribute types whose description gives a length. RFC 4512 4.1.2 calls it a suggested minimum upper bound. -/
def lengths : List (Nat × List Str) := [
  (250000, [str "audio"]),
  (256, [str "buildingName", str "documentIdentifier", str "documentLocation", str "documentTitle", str "documentVersion", str "drink", str "host", str "organizationalStatus", str "personalTitle", str "roomNumber", str "uniqueIdentifier", str "userClass", str "mail"]),
  (2048, [str "info"])]

/-- object classes (RFC 4512, 4519, 4524, 2798, 2307) and the attributes their entries must have -/
def required : List (Str × List Str) := [
  (str "top", [str "objectClass"]),
  (str "alias", [str "objectClass", str "aliasedObjectName"]),
  (str "subschema", []),
  (str "applicationProcess", [str "objectClass", str "cn"]),
  (str "country", [str "objectClass", str "c"]),
  (str "dcObject", [str "objectClass", str "dc"]),
  (str "device", [str "objectClass", str "cn"]),
  (str "groupOfNames", [str "objectClass", str "member", str "cn"]),
  (str "groupOfUniqueNames", [str "objectClass", str "uniqueMember", str "cn"]),
  (str "locality", [str "objectClass"]),
  (str "organization", [str "objectClass", str "o"]),
  (str "organizationalPerson", [str "objectClass", str "sn", str "cn"]),
  (str "organizationalRole", [str "objectClass", str "cn"]),
  (str "organizationalUnit", [str "objectClass", str "ou"]),
  (str "person", [str "objectClass", str "sn", str "cn"]),
  (str "residentialPerson", [str "objectClass", str "sn", str "cn", str "l"]),
  (str "uidObject", [str "objectClass", str "uid"]),
  (str "inetOrgPerson", [str "objectClass", str "sn", str "cn"]),
  (str "account", [str "objectClass", str "uid"]),
  (str "document", [str "objectClass", str "documentIdentifier"]),
  (str "documentSeries", [str "objectClass", str "cn"]),
  (str "domain", [str "objectClass", str "dc"]),
  (str "domainRelatedObject", [str "objectClass", str "associatedDomain"]),
  (str "friendlyCountry", [str "objectClass", str "c", str "co"]),
  (str "rFC822localPart", [str "objectClass", str "dc"]),
  (str "room", [str "objectClass", str "cn"]),
  (str "simpleSecurityObject", [str "objectClass", str "userPassword"]),
  (str "extensibleObject", [str "objectClass"]),
  (str "nisNetgroup", [str "objectClass", str "cn"])]

/-- object classes and the attributes their entries may have -/
def permitted : List (Str × List Str) := [
  (str "top", []),
  (str "alias", []),
  (str "subschema", [str "dITStructureRules", str "nameForms", str "ditContentRules", str "objectClasses", str "attributeTypes", str "matchingRules", str "matchingRuleUse"]),
  (str "applicationProcess", [str "seeAlso", str "ou", str "l", str "description"]),
  (str "country", [str "searchGuide", str "description"]),
  (str "dcObject", []),
  (str "device", [str "serialNumber", str "seeAlso", str "owner", str "ou", str "o", str "l", str "description"]),
  (str "groupOfNames", [str "businessCategory", str "seeAlso", str "owner", str "ou", str "o", str "description"]),
  (str "groupOfUniqueNames", [str "businessCategory", str "seeAlso", str "owner", str "ou", str "o", str "description"]),
  (str "locality", [str "street", str "seeAlso", str "searchGuide", str "st", str "l", str "description"]),
  (str "organization", [str "userPassword", str "searchGuide", str "seeAlso", str "businessCategory", str "x121Address", str "registeredAddress", str "destinationIndicator", str "preferredDeliveryMethod", str "telexNumber", str "teletexTerminalIdentifier", str "telephoneNumber", str "internationalISDNNumber", str "facsimileTelephoneNumber", str "street", str "postOfficeBox", str "postalCode", str "postalAddress", str "physicalDeliveryOfficeName", str "st", str "l", str "description"]),
  (str "organizationalPerson", [str "userPassword", str "telephoneNumber", str "seeAlso", str "description", str "title", str "x121Address", str "registeredAddress", str "destinationIndicator", str "preferredDeliveryMethod", str "telexNumber", str "teletexTerminalIdentifier", str "internationalISDNNumber", str "facsimileTelephoneNumber", str "street", str "postOfficeBox", str "postalCode", str "postalAddress", str "physicalDeliveryOfficeName", str "ou", str "st", str "l"]),
  (str "organizationalRole", [str "x121Address", str "registeredAddress", str "destinationIndicator", str "preferredDeliveryMethod", str "telexNumber", str "teletexTerminalIdentifier", str "telephoneNumber", str "internationalISDNNumber", str "facsimileTelephoneNumber", str "seeAlso", str "roleOccupant", str "street", str "postOfficeBox", str "postalCode", str "postalAddress", str "physicalDeliveryOfficeName", str "ou", str "st", str "l", str "description"]),
  (str "organizationalUnit", [str "businessCategory", str "description", str "destinationIndicator", str "facsimileTelephoneNumber", str "internationalISDNNumber", str "l", str "physicalDeliveryOfficeName", str "postalAddress", str "postalCode", str "postOfficeBox", str "preferredDeliveryMethod", str "registeredAddress", str "searchGuide", str "seeAlso", str "st", str "street", str "telephoneNumber", str "teletexTerminalIdentifier", str "telexNumber", str "userPassword", str "x121Address"]),
  (str "person", [str "userPassword", str "telephoneNumber", str "seeAlso", str "description"]),
  (str "residentialPerson", [str "userPassword", str "telephoneNumber", str "seeAlso", str "description", str "businessCategory", str "x121Address", str "registeredAddress", str "destinationIndicator", str "preferredDeliveryMethod", str "telexNumber", str "teletexTerminalIdentifier", str "internationalISDNNumber", str "facsimileTelephoneNumber", str "street", str "postOfficeBox", str "postalCode", str "postalAddress", str "physicalDeliveryOfficeName", str "st", str "l"]),
  (str "uidObject", []),
  (str "inetOrgPerson", [str "userPassword", str "telephoneNumber", str "seeAlso", str "description", str "title", str "x121Address", str "registeredAddress", str "destinationIndicator", str "preferredDeliveryMethod", str "telexNumber", str "teletexTerminalIdentifier", str "internationalISDNNumber", str "facsimileTelephoneNumber", str "street", str "postOfficeBox", str "postalCode", str "postalAddress", str "physicalDeliveryOfficeName", str "ou", str "st", str "l", str "audio", str "businessCategory", str "carLicense", str "departmentNumber", str "displayName", str "employeeNumber", str "employeeType", str "givenName", str "homePhone", str "homePostalAddress", str "initials", str "jpegPhoto", str "labeledURI", str "mail", str "manager", str "mobile", str "o", str "pager", str "photo", str "roomNumber", str "secretary", str "uid", str "userCertificate", str "x500uniqueIdentifier", str "preferredLanguage", str "userSMIMECertificate", str "userPKCS12", str "internationaliSDNNumber"]),
  (str "account", [str "description", str "seeAlso", str "l", str "o", str "ou", str "host"]),
  (str "document", [str "cn", str "description", str "seeAlso", str "l", str "o", str "ou", str "documentTitle", str "documentVersion", str "documentAuthor", str "documentLocation", str "documentPublisher"]),
  (str "documentSeries", [str "description", str "l", str "o", str "ou", str "seeAlso", str "telephonenumber"]),
  (str "domain", [str "userPassword", str "searchGuide", str "seeAlso", str "businessCategory", str "x121Address", str "registeredAddress", str "destinationIndicator", str "preferredDeliveryMethod", str "telexNumber", str "teletexTerminalIdentifier", str "telephoneNumber", str "internationaliSDNNumber", str "facsimileTelephoneNumber", str "street", str "postOfficeBox", str "postalCode", str "postalAddress", str "physicalDeliveryOfficeName", str "st", str "l", str "description", str "o", str "associatedName"]),
  (str "domainRelatedObject", []),
  (str "friendlyCountry", [str "searchGuide", str "description"]),
  (str "rFC822localPart", [str "userPassword", str "searchGuide", str "seeAlso", str "businessCategory", str "x121Address", str "registeredAddress", str "destinationIndicator", str "preferredDeliveryMethod", str "telexNumber", str "teletexTerminalIdentifier", str "telephoneNumber", str "internationaliSDNNumber", str "facsimileTelephoneNumber", str "street", str "postOfficeBox", str "postalCode", str "postalAddress", str "physicalDeliveryOfficeName", str "st", str "l", str "description", str "o", str "associatedName", str "cn", str "sn"]),
  (str "room", [str "roomNumber", str "description", str "seeAlso", str "telephoneNumber"]),
  (str "simpleSecurityObject", []),
  (str "extensibleObject", []),
  (str "nisNetgroup", [str "nisNetgroupTriple", str "memberNisNetgroup", str "description"])]

/-- attribute types that have at most one value, again following the supertypes -/
def singleValued : List Str := [str "aliasedObjectName", str "creatorsName", str "createTimestamp", str "modifiersName", str "modifyTimestamp", str "structuralObjectClass", str "governingStructureRule", str "subschemaSubentry", str "c", str "dc", str "preferredDeliveryMethod", str "displayName", str "employeeNumber", str "preferredLanguage"]

/-- attribute types that only the server may change, again following the supertypes -/
def serverOnly : List Str := [str "creatorsName", str "createTimestamp", str "modifiersName", str "modifyTimestamp", str "structuralObjectClass", str "governingStructureRule", str "subschemaSubentry"]

/-- class, the spelling under which it permits an attribute, and the spelling in the definition of that attribute: those that differ -/
def misspelled : List (Str × Str × Str) := [
  (str "documentSeries", str "telephonenumber", str "telephoneNumber"),
  (str "domain", str "internationaliSDNNumber", str "internationalISDNNumber"),
  (str "inetOrgPerson", str "x500uniqueIdentifier", str "x500UniqueIdentifier"),
  (str "rFC822localPart", str "internationaliSDNNumber", str "internationalISDNNumber"),
  (str "subschema", str "ditContentRules", str "dITContentRules")]

end Laurelin.Spec.BaseSchema
