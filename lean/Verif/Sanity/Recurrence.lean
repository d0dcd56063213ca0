import Verif.Model.Recurrence
import Verif.Model.Completeness

/-!
# The models of `stepp_analysis` and `recurrence_analysis` at `Float`, on the data of the quality-assurance tests

A check of the translation, not a proof: the catalogue tests/data/completeness_input_test.csv (year and magnitude of all events, and of the events of the first source
of tests/data/area_source_model_processing.xml) and the numbers expected by tests/qa_tests/test_recurrence.py and
tests/qa_tests/test_completeness.py.
-/

namespace Verif.Sanity.Recurrence

open Verif

def zone0 : List (Float × Float) := [(1911.0,5.9),(1912.0,5.8),(1924.0,5.6),(1928.0,5.5),(1933.0,6.0),(1935.0,5.5),(1936.0,5.9),(1936.0,5.6),(1937.0,5.5),(1937.0,6.1),(1939.0,6.1),(1940.0,5.6),(1944.0,5.8),(1944.0,5.6),(1948.0,5.6),(1952.0,5.7),(1953.0,5.9),(1956.0,5.5),(1960.0,4.6),(1961.0,5.0),(1961.0,4.7),(1961.0,4.5),(1961.0,5.5),(1961.0,4.6),(1962.0,4.9),(1962.0,4.6),(1962.0,4.6),(1962.0,4.6),(1962.0,4.6),(1962.0,4.7),(1964.0,4.5),(1964.0,4.5),(1964.0,4.8),(1964.0,4.6),(1964.0,4.9),(1964.0,5.0),(1965.0,4.6),(1965.0,4.5),(1965.0,5.4),(1966.0,5.9),(1967.0,4.6),(1967.0,4.7),(1967.0,4.6),(1967.0,5.2),(1968.0,4.6),(1968.0,5.2),(1969.0,4.5),(1969.0,5.1),(1969.0,5.1),(1970.0,5.1),(1970.0,4.8),(1970.0,6.0),(1970.0,4.9),(1970.0,4.8),(1970.0,4.6),(1971.0,4.6),(1971.0,4.5),(1972.0,4.7),(1973.0,4.5),(1973.0,4.7),(1974.0,4.7),(1974.0,4.7),(1974.0,5.4),(1975.0,4.6),(1975.0,4.6),(1975.0,4.5),(1975.0,4.6),(1976.0,6.3),(1976.0,4.5),(1976.0,4.6),(1977.0,5.2),(1977.0,4.7),(1977.0,4.5),(1977.0,4.6),(1978.0,4.5),(1978.0,4.7),(1978.0,4.8),(1979.0,5.2),(1979.0,4.5),(1979.0,5.1),(1979.0,4.6),(1979.0,4.6),(1979.0,5.5),(1980.0,4.8),(1980.0,6.1),(1981.0,4.7),(1981.0,4.8),(1981.0,4.8),(1982.0,5.0),(1982.0,5.7),(1983.0,5.2),(1984.0,4.6),(1984.0,5.0),(1984.0,4.8),(1984.0,5.2),(1984.0,4.5),(1984.0,5.4),(1985.0,4.5),(1985.0,4.9),(1985.0,4.7)]
def zone1 : List (Float × Float) := [(1986.0,5.8),(1986.0,4.8),(1986.0,5.5),(1986.0,4.6),(1986.0,4.7),(1987.0,4.9),(1987.0,4.5),(1987.0,4.7),(1987.0,4.8),(1987.0,4.7),(1988.0,4.8),(1988.0,5.5),(1989.0,4.5),(1989.0,5.0),(1990.0,4.0),(1990.0,4.3),(1990.0,4.3),(1990.0,5.1),(1990.0,4.1),(1990.0,4.4),(1990.0,4.3),(1990.0,4.1),(1990.0,4.1),(1990.0,4.5),(1991.0,4.0),(1991.0,4.1),(1991.0,4.1),(1991.0,4.7),(1992.0,5.0),(1992.0,4.6),(1992.0,4.8),(1992.0,4.2),(1992.0,4.2),(1992.0,4.2),(1992.0,4.8),(1992.0,5.1),(1992.0,4.2),(1992.0,4.9),(1993.0,4.3),(1993.0,4.5),(1993.0,4.6),(1993.0,4.1),(1993.0,4.9),(1993.0,4.0),(1993.0,5.4),(1993.0,4.3),(1993.0,4.1),(1993.0,4.8),(1994.0,4.0),(1994.0,4.7),(1994.0,4.0),(1994.0,4.4),(1994.0,4.3),(1994.0,4.3),(1994.0,4.1),(1995.0,4.5),(1995.0,4.6),(1995.0,4.2),(1995.0,4.7),(1995.0,4.9),(1995.0,4.3),(1995.0,4.6),(1995.0,4.7),(1995.0,5.0),(1995.0,4.9),(1995.0,4.3),(1995.0,6.0),(1995.0,5.5),(1995.0,4.2),(1995.0,4.2),(1996.0,4.8),(1996.0,4.5),(1996.0,4.1),(1996.0,4.4),(1997.0,4.5),(1997.0,4.1),(1997.0,5.3),(1997.0,4.2),(1997.0,4.1),(1997.0,4.1),(1997.0,4.0),(1997.0,4.4),(1997.0,4.6),(1997.0,4.6),(1997.0,4.2),(1997.0,4.4),(1997.0,4.3),(1998.0,4.0),(1998.0,4.2),(1998.0,4.7),(1998.0,4.2),(1998.0,4.0),(1999.0,4.2),(1999.0,4.1),(1999.0,4.2),(1999.0,4.2),(1999.0,4.4),(1999.0,4.6),(1999.0,4.3),(1999.0,4.2)]
def zone2 : List (Float × Float) := [(1999.0,4.4),(1999.0,4.2),(1999.0,5.8),(1999.0,4.0),(2000.0,4.3),(2000.0,4.2),(2000.0,4.0),(2000.0,4.0),(2000.0,4.1),(2000.0,4.8),(2000.0,6.1),(2000.0,4.1),(2001.0,4.9),(2001.0,4.5),(2001.0,4.2),(2001.0,4.1),(2001.0,4.5),(2001.0,4.5),(2001.0,4.2),(2001.0,4.0),(2001.0,4.0),(2002.0,4.1),(2002.0,4.0),(2002.0,5.0),(2002.0,4.0),(2002.0,4.6),(2002.0,4.1),(2002.0,4.5),(2002.0,4.7),(2003.0,4.2),(2003.0,4.0),(2003.0,4.3),(2003.0,4.3),(2003.0,4.1),(2003.0,4.3),(2003.0,4.0),(2003.0,5.0),(2003.0,4.3),(2003.0,4.4),(2003.0,6.4),(2003.0,4.1),(2003.0,4.7),(2003.0,4.3),(2004.0,4.4),(2004.0,4.5),(2004.0,4.3),(2004.0,4.5),(2004.0,4.6),(2004.0,4.5),(2004.0,4.7),(2004.0,4.1),(2004.0,4.3),(2004.0,4.1),(2005.0,4.3),(2005.0,4.4),(2005.0,5.1),(2005.0,4.1),(2005.0,4.3),(2005.0,4.1),(2005.0,4.8),(2005.0,4.1),(2006.0,4.3),(2006.0,4.0),(2006.0,4.2),(2006.0,4.1),(2006.0,4.1),(2006.0,4.1),(2006.0,5.3),(2006.0,4.8),(2006.0,4.1),(2006.0,4.3),(2007.0,4.1),(2007.0,4.6),(2007.0,4.0),(2007.0,4.6),(2007.0,4.6),(2007.0,4.2),(2008.0,4.1),(2008.0,4.4),(2008.0,4.2),(2008.0,4.1),(2008.0,4.0),(2008.0,4.7),(2008.0,4.3),(2008.0,4.5),(2009.0,4.6),(2009.0,4.5),(2009.0,4.8),(2009.0,4.3),(2009.0,4.7),(2009.0,4.1),(2009.0,4.2),(2009.0,4.0),(2009.0,4.1)]
def zone : List (Float × Float) := zone0 ++ zone1 ++ zone2

def events0 : List (Float × Float) := [(1910.0,6.5),(1910.0,6.5),(1910.0,6.0),(1911.0,5.9),(1911.0,6.0),(1911.0,5.5),(1912.0,5.8),(1912.0,6.6),(1913.0,5.8),(1914.0,5.5),(1914.0,6.3),(1914.0,5.5),(1915.0,6.4),(1915.0,5.9),(1915.0,5.5),(1915.0,6.0),(1915.0,5.6),(1916.0,5.6),(1916.0,5.5),(1917.0,5.6),(1917.0,6.1),(1918.0,5.6),(1919.0,5.6),(1919.0,5.6),(1919.0,6.3),(1919.0,6.1),(1921.0,5.5),(1921.0,5.7),(1922.0,5.6),(1922.0,5.5),(1923.0,5.8),(1923.0,5.8),(1923.0,5.7),(1924.0,5.6),(1924.0,5.6),(1924.0,5.7),(1924.0,5.6),(1925.0,5.7),(1926.0,6.3),(1926.0,5.8),(1926.0,6.4),(1926.0,6.3),(1927.0,6.1),(1927.0,5.8),(1928.0,5.5),(1929.0,5.5),(1930.0,5.9),(1930.0,6.1),(1930.0,5.8),(1930.0,5.5),(1930.0,6.3),(1931.0,5.9),(1931.0,5.6),(1931.0,5.5),(1933.0,6.6),(1933.0,6.0),(1933.0,7.4),(1934.0,5.6),(1935.0,5.6),(1935.0,5.5),(1936.0,5.9),(1936.0,5.6),(1936.0,5.7),(1937.0,5.5),(1937.0,6.1),(1937.0,6.9),(1939.0,6.0),(1939.0,5.8),(1939.0,6.1),(1940.0,5.6),(1940.0,5.6),(1940.0,5.5),(1942.0,5.7),(1943.0,6.5),(1943.0,5.6),(1944.0,5.8),(1944.0,5.6),(1945.0,5.6),(1945.0,5.8),(1945.0,6.1),(1946.0,5.9),(1947.0,5.5),(1948.0,5.6),(1949.0,5.6),(1949.0,5.9),(1949.0,5.5),(1952.0,5.7),(1952.0,6.0),(1952.0,6.2),(1952.0,5.5),(1953.0,5.9),(1953.0,5.6),(1954.0,5.8),(1955.0,5.6),(1956.0,6.3),(1956.0,5.5),(1957.0,6.6),(1959.0,6.0),(1959.0,6.3),(1960.0,4.6)]
def events1 : List (Float × Float) := [(1960.0,4.9),(1960.0,4.7),(1960.0,4.6),(1960.0,4.7),(1960.0,4.7),(1960.0,4.5),(1960.0,4.7),(1960.0,5.9),(1960.0,4.5),(1960.0,5.6),(1960.0,4.5),(1960.0,4.8),(1960.0,4.6),(1960.0,5.1),(1960.0,4.6),(1960.0,4.5),(1960.0,5.1),(1961.0,4.6),(1961.0,4.6),(1961.0,4.5),(1961.0,4.5),(1961.0,4.6),(1961.0,4.8),(1961.0,5.2),(1961.0,6.0),(1961.0,5.0),(1961.0,5.2),(1961.0,4.9),(1961.0,4.7),(1961.0,6.0),(1961.0,4.5),(1961.0,5.5),(1961.0,4.6),(1961.0,4.9),(1961.0,4.9),(1961.0,4.6),(1961.0,4.5),(1962.0,4.5),(1962.0,5.0),(1962.0,4.9),(1962.0,4.6),(1962.0,4.6),(1962.0,4.5),(1962.0,4.6),(1962.0,4.6),(1962.0,4.5),(1962.0,4.6),(1962.0,4.8),(1962.0,4.8),(1962.0,4.6),(1962.0,5.1),(1962.0,4.6),(1962.0,4.7),(1962.0,4.6),(1962.0,4.8),(1962.0,4.8),(1962.0,4.6),(1962.0,4.9),(1962.0,5.7),(1962.0,4.7),(1962.0,4.7),(1963.0,4.5),(1963.0,4.6),(1963.0,5.7),(1963.0,4.6),(1963.0,4.6),(1963.0,5.1),(1963.0,4.6),(1963.0,4.6),(1963.0,4.5),(1963.0,5.0),(1963.0,4.7),(1963.0,4.5),(1963.0,5.4),(1963.0,4.6),(1963.0,4.5),(1963.0,4.9),(1963.0,5.5),(1963.0,4.8),(1963.0,5.0),(1964.0,4.5),(1964.0,4.8),(1964.0,4.8),(1964.0,4.5),(1964.0,4.8),(1964.0,4.9),(1964.0,4.8),(1964.0,4.6),(1964.0,4.5),(1964.0,4.6),(1964.0,4.5),(1964.0,4.9),(1964.0,4.9),(1964.0,4.6),(1964.0,5.2),(1964.0,4.5),(1964.0,4.6),(1964.0,4.6),(1964.0,4.6),(1964.0,4.9)]
def events2 : List (Float × Float) := [(1964.0,5.0),(1964.0,4.5),(1964.0,5.1),(1964.0,5.4),(1965.0,5.1),(1965.0,4.5),(1965.0,4.7),(1965.0,4.8),(1965.0,5.3),(1965.0,4.6),(1965.0,4.9),(1965.0,4.9),(1965.0,4.5),(1965.0,4.6),(1965.0,4.6),(1965.0,4.5),(1965.0,4.9),(1965.0,5.2),(1965.0,5.2),(1965.0,5.0),(1965.0,4.5),(1965.0,4.5),(1965.0,5.4),(1965.0,4.7),(1965.0,4.9),(1965.0,5.1),(1965.0,5.4),(1965.0,4.7),(1965.0,4.5),(1966.0,4.8),(1966.0,4.7),(1966.0,5.3),(1966.0,4.5),(1966.0,7.0),(1966.0,4.9),(1966.0,5.9),(1966.0,4.7),(1966.0,5.6),(1966.0,5.9),(1966.0,4.5),(1966.0,4.8),(1966.0,4.8),(1966.0,4.5),(1966.0,4.5),(1966.0,4.7),(1966.0,5.0),(1966.0,4.7),(1966.0,5.1),(1967.0,5.0),(1967.0,5.0),(1967.0,4.8),(1967.0,4.6),(1967.0,4.5),(1967.0,4.6),(1967.0,4.6),(1967.0,4.7),(1967.0,4.6),(1967.0,4.5),(1967.0,5.5),(1967.0,4.5),(1967.0,4.6),(1967.0,5.4),(1967.0,5.2),(1968.0,4.7),(1968.0,4.9),(1968.0,5.0),(1968.0,4.6),(1968.0,5.0),(1968.0,4.5),(1968.0,4.8),(1968.0,4.7),(1968.0,5.8),(1968.0,5.3),(1968.0,4.6),(1968.0,4.5),(1968.0,4.9),(1968.0,4.9),(1968.0,4.7),(1968.0,4.5),(1968.0,5.1),(1968.0,4.5),(1968.0,5.0),(1968.0,4.5),(1968.0,5.2),(1969.0,4.9),(1969.0,4.7),(1969.0,4.5),(1969.0,4.5),(1969.0,5.2),(1969.0,4.5),(1969.0,4.5),(1969.0,5.2),(1969.0,5.1),(1969.0,4.5),(1969.0,5.4),(1969.0,5.1),(1969.0,5.6),(1969.0,4.5),(1969.0,4.5),(1969.0,4.8)]
def events3 : List (Float × Float) := [(1969.0,4.5),(1969.0,4.8),(1970.0,5.2),(1970.0,4.6),(1970.0,5.2),(1970.0,4.9),(1970.0,5.1),(1970.0,4.7),(1970.0,4.9),(1970.0,5.2),(1970.0,4.8),(1970.0,4.9),(1970.0,4.7),(1970.0,4.8),(1970.0,4.7),(1970.0,6.0),(1970.0,4.8),(1970.0,4.8),(1970.0,4.5),(1970.0,4.9),(1970.0,5.2),(1970.0,4.8),(1970.0,5.2),(1970.0,5.2),(1970.0,4.6),(1970.0,5.0),(1971.0,4.6),(1971.0,4.7),(1971.0,4.6),(1971.0,4.5),(1971.0,4.8),(1971.0,5.0),(1971.0,5.1),(1971.0,4.5),(1971.0,4.5),(1971.0,4.7),(1971.0,4.8),(1971.0,5.3),(1971.0,5.3),(1971.0,4.6),(1971.0,5.0),(1971.0,5.5),(1971.0,4.8),(1971.0,4.5),(1971.0,5.1),(1971.0,4.5),(1972.0,4.5),(1972.0,4.6),(1972.0,5.1),(1972.0,4.8),(1972.0,5.3),(1972.0,4.9),(1972.0,4.6),(1972.0,5.0),(1972.0,4.9),(1972.0,4.5),(1972.0,4.7),(1972.0,5.0),(1972.0,5.4),(1972.0,4.5),(1972.0,5.5),(1972.0,6.0),(1972.0,5.0),(1972.0,5.2),(1972.0,5.0),(1973.0,4.5),(1973.0,4.7),(1973.0,4.7),(1973.0,4.7),(1973.0,4.9),(1973.0,4.6),(1973.0,5.3),(1973.0,5.4),(1973.0,5.0),(1973.0,4.6),(1973.0,4.7),(1973.0,6.1),(1973.0,5.8),(1973.0,4.6),(1973.0,4.9),(1973.0,5.6),(1973.0,5.2),(1973.0,5.5),(1973.0,4.8),(1974.0,5.1),(1974.0,4.5),(1974.0,4.5),(1974.0,4.5),(1974.0,4.9),(1974.0,4.9),(1974.0,4.5),(1974.0,4.5),(1974.0,4.6),(1974.0,4.5),(1974.0,4.9),(1974.0,5.4),(1974.0,4.8),(1974.0,4.7),(1974.0,4.7),(1974.0,5.3)]
def events4 : List (Float × Float) := [(1974.0,4.7),(1974.0,4.9),(1974.0,4.6),(1974.0,4.7),(1974.0,5.4),(1974.0,5.4),(1974.0,4.6),(1974.0,4.5),(1975.0,5.3),(1975.0,4.5),(1975.0,4.8),(1975.0,4.7),(1975.0,6.6),(1975.0,4.7),(1975.0,4.6),(1975.0,4.5),(1975.0,4.9),(1975.0,4.9),(1975.0,4.6),(1975.0,4.6),(1975.0,4.5),(1975.0,4.8),(1975.0,5.4),(1975.0,6.3),(1975.0,4.5),(1975.0,5.1),(1975.0,4.5),(1975.0,4.8),(1975.0,4.6),(1975.0,5.8),(1975.0,4.6),(1976.0,4.6),(1976.0,4.6),(1976.0,5.3),(1976.0,6.3),(1976.0,5.4),(1976.0,4.5),(1976.0,5.2),(1976.0,5.5),(1976.0,6.2),(1976.0,4.9),(1976.0,5.8),(1976.0,4.5),(1976.0,4.5),(1976.0,4.6),(1976.0,4.6),(1976.0,4.5),(1976.0,4.6),(1977.0,4.6),(1977.0,4.8),(1977.0,5.2),(1977.0,4.6),(1977.0,4.6),(1977.0,4.5),(1977.0,5.0),(1977.0,5.1),(1977.0,4.7),(1977.0,5.0),(1977.0,4.9),(1977.0,5.1),(1977.0,5.7),(1977.0,5.3),(1977.0,4.5),(1977.0,5.6),(1977.0,4.8),(1977.0,4.5),(1977.0,4.5),(1977.0,4.6),(1977.0,4.5),(1977.0,5.6),(1977.0,4.6),(1977.0,4.7),(1977.0,4.6),(1977.0,5.2),(1977.0,5.3),(1977.0,4.5),(1977.0,5.1),(1978.0,4.5),(1978.0,4.8),(1978.0,4.6),(1978.0,4.6),(1978.0,4.5),(1978.0,4.5),(1978.0,4.7),(1978.0,4.6),(1978.0,5.2),(1978.0,5.5),(1978.0,4.7),(1978.0,4.5),(1978.0,5.3),(1978.0,4.8),(1978.0,5.1),(1978.0,4.7),(1978.0,5.4),(1978.0,4.7),(1978.0,5.4),(1978.0,5.1),(1978.0,5.0),(1978.0,4.8),(1978.0,4.7)]
def events5 : List (Float × Float) := [(1978.0,4.8),(1978.0,5.8),(1978.0,4.5),(1978.0,4.5),(1979.0,6.4),(1979.0,7.4),(1979.0,5.0),(1979.0,5.2),(1979.0,4.9),(1979.0,5.7),(1979.0,4.5),(1979.0,4.6),(1979.0,5.1),(1979.0,4.6),(1979.0,4.6),(1979.0,5.2),(1979.0,4.8),(1979.0,4.6),(1979.0,4.6),(1979.0,4.9),(1979.0,4.6),(1979.0,4.5),(1979.0,4.8),(1979.0,5.5),(1979.0,4.7),(1979.0,5.0),(1979.0,4.8),(1980.0,4.5),(1980.0,4.8),(1980.0,5.0),(1980.0,5.1),(1980.0,4.5),(1980.0,5.2),(1980.0,4.7),(1980.0,4.8),(1980.0,6.1),(1980.0,4.9),(1980.0,4.7),(1980.0,4.6),(1980.0,4.5),(1980.0,4.5),(1980.0,5.2),(1980.0,4.6),(1980.0,4.9),(1981.0,4.7),(1981.0,5.2),(1981.0,5.0),(1981.0,4.9),(1981.0,4.7),(1981.0,4.7),(1981.0,4.7),(1981.0,4.7),(1981.0,4.8),(1981.0,4.6),(1981.0,4.8),(1981.0,4.5),(1982.0,5.1),(1982.0,4.5),(1982.0,4.9),(1982.0,4.7),(1982.0,4.9),(1982.0,4.7),(1982.0,4.7),(1982.0,4.5),(1982.0,4.5),(1982.0,4.9),(1982.0,4.6),(1982.0,4.7),(1982.0,4.5),(1982.0,5.0),(1982.0,5.7),(1982.0,4.6),(1982.0,4.5),(1982.0,6.0),(1982.0,4.9),(1982.0,4.7),(1983.0,5.2),(1983.0,5.6),(1983.0,5.1),(1983.0,4.6),(1983.0,5.2),(1983.0,5.2),(1983.0,6.3),(1983.0,4.5),(1983.0,4.7),(1983.0,4.8),(1983.0,4.7),(1983.0,4.6),(1983.0,4.7),(1983.0,4.5),(1983.0,5.8),(1983.0,5.5),(1984.0,4.5),(1984.0,4.6),(1984.0,4.8),(1984.0,4.5),(1984.0,4.6),(1984.0,5.4),(1984.0,5.0),(1984.0,4.8)]
def events6 : List (Float × Float) := [(1984.0,4.6),(1984.0,5.0),(1984.0,4.5),(1984.0,5.5),(1984.0,4.8),(1984.0,4.8),(1984.0,5.2),(1984.0,4.8),(1984.0,4.5),(1984.0,4.8),(1984.0,4.5),(1984.0,5.4),(1984.0,5.9),(1985.0,4.5),(1985.0,4.5),(1985.0,4.5),(1985.0,5.1),(1985.0,4.8),(1985.0,4.9),(1985.0,4.6),(1985.0,4.5),(1985.0,4.7),(1985.0,4.6),(1985.0,4.5),(1985.0,6.0),(1985.0,4.7),(1985.0,4.9),(1985.0,4.7),(1985.0,4.5),(1985.0,4.8),(1985.0,4.7),(1986.0,4.6),(1986.0,4.6),(1986.0,4.6),(1986.0,4.8),(1986.0,4.7),(1986.0,4.6),(1986.0,5.9),(1986.0,4.6),(1986.0,4.7),(1986.0,5.3),(1986.0,5.8),(1986.0,4.8),(1986.0,5.5),(1986.0,4.8),(1986.0,4.5),(1986.0,4.6),(1986.0,5.1),(1986.0,4.6),(1986.0,4.5),(1986.0,4.5),(1986.0,4.7),(1986.0,4.5),(1987.0,5.3),(1987.0,4.8),(1987.0,4.5),(1987.0,4.9),(1987.0,4.8),(1987.0,4.5),(1987.0,4.7),(1987.0,4.7),(1987.0,5.0),(1987.0,4.8),(1987.0,5.6),(1987.0,4.9),(1987.0,5.3),(1987.0,4.7),(1987.0,4.7),(1987.0,4.7),(1987.0,4.5),(1987.0,5.4),(1987.0,4.5),(1987.0,4.6),(1988.0,4.6),(1988.0,5.8),(1988.0,4.5),(1988.0,4.8),(1988.0,4.7),(1988.0,4.8),(1988.0,5.0),(1988.0,4.6),(1988.0,5.0),(1988.0,5.7),(1988.0,4.6),(1988.0,5.0),(1988.0,4.5),(1988.0,5.1),(1988.0,4.8),(1988.0,4.6),(1988.0,4.9),(1988.0,5.5),(1988.0,4.6),(1988.0,4.5),(1988.0,4.5),(1988.0,4.9),(1988.0,4.9),(1988.0,5.0),(1988.0,4.8),(1988.0,6.2),(1988.0,4.8)]
def events7 : List (Float × Float) := [(1989.0,4.5),(1989.0,4.8),(1989.0,4.9),(1989.0,4.5),(1989.0,5.3),(1989.0,5.0),(1989.0,4.7),(1989.0,4.8),(1989.0,5.6),(1989.0,4.7),(1989.0,4.8),(1989.0,4.6),(1989.0,4.7),(1989.0,4.8),(1989.0,4.5),(1989.0,4.5),(1989.0,4.6),(1990.0,4.3),(1990.0,4.4),(1990.0,4.2),(1990.0,4.2),(1990.0,4.0),(1990.0,4.3),(1990.0,4.1),(1990.0,4.5),(1990.0,4.9),(1990.0,4.0),(1990.0,4.3),(1990.0,4.3),(1990.0,4.1),(1990.0,4.1),(1990.0,5.1),(1990.0,4.1),(1990.0,4.1),(1990.0,4.1),(1990.0,4.1),(1990.0,4.2),(1990.0,4.1),(1990.0,4.5),(1990.0,4.4),(1990.0,4.1),(1990.0,4.3),(1990.0,4.2),(1990.0,4.3),(1990.0,4.0),(1990.0,4.2),(1990.0,6.2),(1990.0,4.4),(1990.0,4.0),(1990.0,4.1),(1990.0,4.1),(1990.0,4.3),(1990.0,4.1),(1990.0,4.3),(1990.0,4.1),(1990.0,4.5),(1990.0,4.7),(1990.0,4.5),(1990.0,4.0),(1990.0,4.2),(1990.0,4.3),(1990.0,4.5),(1990.0,4.5),(1990.0,4.0),(1990.0,4.2),(1991.0,4.2),(1991.0,4.1),(1991.0,4.4),(1991.0,4.1),(1991.0,4.0),(1991.0,4.0),(1991.0,4.5),(1991.0,4.0),(1991.0,6.0),(1991.0,4.7),(1991.0,4.2),(1991.0,4.4),(1991.0,4.1),(1991.0,4.4),(1991.0,4.4),(1991.0,4.4),(1991.0,4.3),(1991.0,4.2),(1991.0,4.0),(1991.0,4.7),(1991.0,4.8),(1991.0,4.6),(1991.0,4.0),(1991.0,4.2),(1991.0,4.6),(1991.0,4.0),(1991.0,5.0),(1991.0,4.4),(1991.0,4.1),(1991.0,4.4),(1991.0,4.2),(1991.0,4.5),(1991.0,4.1),(1991.0,4.3),(1991.0,4.1)]
def events8 : List (Float × Float) := [(1991.0,4.4),(1991.0,5.1),(1991.0,4.4),(1991.0,4.8),(1991.0,4.1),(1991.0,4.2),(1991.0,4.7),(1991.0,4.5),(1991.0,4.2),(1992.0,4.4),(1992.0,5.0),(1992.0,4.0),(1992.0,4.2),(1992.0,4.8),(1992.0,4.1),(1992.0,4.6),(1992.0,4.5),(1992.0,4.3),(1992.0,4.8),(1992.0,4.9),(1992.0,4.0),(1992.0,4.6),(1992.0,4.2),(1992.0,4.2),(1992.0,4.2),(1992.0,4.5),(1992.0,4.1),(1992.0,4.2),(1992.0,4.0),(1992.0,4.2),(1992.0,4.1),(1992.0,4.8),(1992.0,4.4),(1992.0,4.0),(1992.0,4.0),(1992.0,4.7),(1992.0,4.0),(1992.0,4.5),(1992.0,4.1),(1992.0,4.3),(1992.0,4.7),(1992.0,4.3),(1992.0,5.1),(1992.0,4.2),(1992.0,4.1),(1992.0,4.9),(1992.0,7.2),(1992.0,6.3),(1992.0,4.6),(1992.0,4.1),(1992.0,4.1),(1992.0,4.1),(1992.0,5.1),(1992.0,4.1),(1992.0,4.7),(1992.0,4.4),(1992.0,4.1),(1992.0,4.2),(1992.0,4.2),(1992.0,4.4),(1993.0,4.0),(1993.0,4.6),(1993.0,4.0),(1993.0,4.6),(1993.0,4.3),(1993.0,4.9),(1993.0,4.3),(1993.0,4.7),(1993.0,4.1),(1993.0,4.2),(1993.0,7.0),(1993.0,4.7),(1993.0,4.4),(1993.0,4.3),(1993.0,4.2),(1993.0,5.0),(1993.0,4.5),(1993.0,4.7),(1993.0,4.0),(1993.0,4.5),(1993.0,4.5),(1993.0,4.6),(1993.0,4.5),(1993.0,4.6),(1993.0,4.1),(1993.0,4.3),(1993.0,4.1),(1993.0,4.1),(1993.0,4.2),(1993.0,4.2),(1993.0,5.2),(1993.0,4.1),(1993.0,4.1),(1993.0,4.1),(1993.0,5.9),(1993.0,4.1),(1993.0,4.6),(1993.0,4.1),(1993.0,4.5),(1993.0,4.9)]
def events9 : List (Float × Float) := [(1993.0,4.3),(1993.0,6.5),(1993.0,4.0),(1993.0,4.6),(1993.0,5.4),(1993.0,5.5),(1993.0,4.1),(1993.0,4.0),(1993.0,4.2),(1993.0,5.4),(1993.0,4.6),(1993.0,4.3),(1993.0,4.6),(1993.0,4.1),(1993.0,5.9),(1993.0,4.0),(1993.0,4.8),(1993.0,4.7),(1993.0,4.4),(1993.0,4.8),(1993.0,5.0),(1993.0,4.4),(1994.0,4.1),(1994.0,4.1),(1994.0,4.1),(1994.0,4.1),(1994.0,4.0),(1994.0,4.3),(1994.0,4.6),(1994.0,4.7),(1994.0,4.0),(1994.0,4.2),(1994.0,4.0),(1994.0,4.2),(1994.0,4.0),(1994.0,4.5),(1994.0,4.1),(1994.0,4.2),(1994.0,4.6),(1994.0,4.9),(1994.0,4.2),(1994.0,4.5),(1994.0,4.4),(1994.0,4.1),(1994.0,4.0),(1994.0,4.3),(1994.0,4.4),(1994.0,4.1),(1994.0,4.2),(1994.0,4.5),(1994.0,4.3),(1994.0,4.3),(1994.0,5.1),(1994.0,5.5),(1994.0,4.5),(1994.0,4.2),(1994.0,4.3),(1994.0,4.3),(1994.0,4.8),(1994.0,4.6),(1994.0,4.1),(1994.0,4.1),(1994.0,4.3),(1994.0,4.0),(1994.0,4.2),(1994.0,4.0),(1994.0,4.0),(1994.0,4.1),(1995.0,4.5),(1995.0,4.2),(1995.0,4.3),(1995.0,4.0),(1995.0,4.3),(1995.0,4.0),(1995.0,4.6),(1995.0,5.4),(1995.0,4.2),(1995.0,4.0),(1995.0,4.2),(1995.0,4.7),(1995.0,4.6),(1995.0,4.9),(1995.0,4.3),(1995.0,5.0),(1995.0,4.1),(1995.0,4.2),(1995.0,5.3),(1995.0,4.4),(1995.0,4.1),(1995.0,4.1),(1995.0,4.5),(1995.0,4.1),(1995.0,4.9),(1995.0,4.4),(1995.0,4.4),(1995.0,4.6),(1995.0,4.3),(1995.0,4.1),(1995.0,4.6),(1995.0,4.3)]
def events10 : List (Float × Float) := [(1995.0,4.1),(1995.0,4.5),(1995.0,4.5),(1995.0,4.2),(1995.0,4.0),(1995.0,4.0),(1995.0,4.7),(1995.0,4.3),(1995.0,4.7),(1995.0,5.0),(1995.0,4.9),(1995.0,4.9),(1995.0,4.1),(1995.0,4.0),(1995.0,4.3),(1995.0,4.4),(1995.0,4.2),(1995.0,4.1),(1995.0,4.4),(1995.0,4.9),(1995.0,5.1),(1995.0,4.3),(1995.0,6.0),(1995.0,5.5),(1995.0,5.0),(1995.0,4.2),(1995.0,4.2),(1995.0,5.4),(1995.0,4.0),(1995.0,4.6),(1995.0,4.2),(1995.0,4.5),(1996.0,4.2),(1996.0,4.4),(1996.0,4.1),(1996.0,4.9),(1996.0,4.2),(1996.0,4.0),(1996.0,4.3),(1996.0,5.0),(1996.0,4.3),(1996.0,5.0),(1996.0,4.8),(1996.0,4.1),(1996.0,4.6),(1996.0,4.2),(1996.0,4.0),(1996.0,5.1),(1996.0,4.5),(1996.0,4.2),(1996.0,4.1),(1996.0,4.8),(1996.0,4.0),(1996.0,4.7),(1996.0,4.3),(1996.0,4.5),(1996.0,4.0),(1996.0,4.0),(1996.0,4.6),(1996.0,4.4),(1996.0,4.8),(1996.0,4.2),(1996.0,4.5),(1996.0,4.1),(1996.0,4.4),(1996.0,4.1),(1996.0,4.6),(1996.0,4.4),(1996.0,4.3),(1996.0,4.4),(1996.0,4.3),(1996.0,4.8),(1996.0,4.5),(1996.0,4.1),(1996.0,4.1),(1996.0,4.4),(1996.0,4.1),(1996.0,4.7),(1996.0,4.0),(1996.0,4.2),(1996.0,4.4),(1997.0,4.5),(1997.0,4.4),(1997.0,4.2),(1997.0,4.3),(1997.0,4.4),(1997.0,4.0),(1997.0,4.1),(1997.0,4.4),(1997.0,4.1),(1997.0,4.1),(1997.0,4.6),(1997.0,4.4),(1997.0,4.0),(1997.0,5.3),(1997.0,4.2),(1997.0,4.1),(1997.0,4.1),(1997.0,4.0),(1997.0,4.7)]
def events11 : List (Float × Float) := [(1997.0,6.4),(1997.0,4.5),(1997.0,4.1),(1997.0,4.2),(1997.0,4.1),(1997.0,4.1),(1997.0,4.5),(1997.0,4.0),(1997.0,4.3),(1997.0,4.0),(1997.0,4.4),(1997.0,4.4),(1997.0,4.6),(1997.0,4.1),(1997.0,4.0),(1997.0,4.0),(1997.0,4.6),(1997.0,4.2),(1997.0,4.3),(1997.0,4.1),(1997.0,4.2),(1997.0,4.2),(1997.0,4.0),(1997.0,4.2),(1997.0,4.1),(1997.0,4.3),(1997.0,5.0),(1997.0,4.2),(1997.0,4.6),(1997.0,4.7),(1997.0,5.3),(1997.0,4.6),(1997.0,4.1),(1997.0,4.6),(1997.0,4.4),(1997.0,4.9),(1997.0,4.3),(1997.0,4.1),(1997.0,4.2),(1997.0,4.1),(1998.0,4.3),(1998.0,4.1),(1998.0,4.3),(1998.0,4.3),(1998.0,4.0),(1998.0,4.7),(1998.0,4.2),(1998.0,4.0),(1998.0,4.2),(1998.0,4.8),(1998.0,4.4),(1998.0,4.6),(1998.0,4.5),(1998.0,4.0),(1998.0,4.1),(1998.0,4.4),(1998.0,4.9),(1998.0,4.2),(1998.0,5.2),(1998.0,4.8),(1998.0,4.4),(1998.0,4.2),(1998.0,4.7),(1998.0,4.7),(1998.0,4.2),(1998.0,4.4),(1998.0,4.3),(1998.0,4.0),(1998.0,4.1),(1998.0,4.3),(1998.0,4.6),(1998.0,5.0),(1998.0,4.3),(1998.0,4.4),(1998.0,4.3),(1998.0,5.0),(1998.0,4.7),(1998.0,4.0),(1998.0,4.0),(1998.0,6.3),(1998.0,4.1),(1998.0,6.1),(1998.0,4.7),(1998.0,4.2),(1998.0,4.0),(1998.0,4.1),(1998.0,4.0),(1999.0,4.4),(1999.0,4.8),(1999.0,4.1),(1999.0,4.4),(1999.0,4.2),(1999.0,5.0),(1999.0,5.6),(1999.0,4.7),(1999.0,4.4),(1999.0,4.6),(1999.0,4.1),(1999.0,4.2),(1999.0,4.1)]
def events12 : List (Float × Float) := [(1999.0,4.5),(1999.0,4.8),(1999.0,4.1),(1999.0,4.2),(1999.0,4.5),(1999.0,4.3),(1999.0,4.1),(1999.0,4.8),(1999.0,4.5),(1999.0,4.2),(1999.0,4.5),(1999.0,4.2),(1999.0,4.1),(1999.0,4.2),(1999.0,4.7),(1999.0,4.2),(1999.0,4.4),(1999.0,4.2),(1999.0,5.0),(1999.0,4.6),(1999.0,4.5),(1999.0,4.5),(1999.0,4.3),(1999.0,4.3),(1999.0,4.2),(1999.0,4.1),(1999.0,5.2),(1999.0,4.3),(1999.0,4.4),(1999.0,4.4),(1999.0,4.7),(1999.0,4.3),(1999.0,4.4),(1999.0,4.2),(1999.0,4.5),(1999.0,4.2),(1999.0,4.1),(1999.0,4.9),(1999.0,4.1),(1999.0,4.1),(1999.0,5.8),(1999.0,4.0),(1999.0,4.9),(1999.0,4.0),(2000.0,4.8),(2000.0,4.5),(2000.0,5.0),(2000.0,4.4),(2000.0,4.0),(2000.0,6.1),(2000.0,4.2),(2000.0,4.5),(2000.0,4.0),(2000.0,4.3),(2000.0,4.5),(2000.0,4.2),(2000.0,4.6),(2000.0,5.2),(2000.0,4.6),(2000.0,4.3),(2000.0,4.4),(2000.0,4.5),(2000.0,4.1),(2000.0,5.9),(2000.0,4.2),(2000.0,4.4),(2000.0,4.2),(2000.0,4.2),(2000.0,4.4),(2000.0,4.1),(2000.0,4.0),(2000.0,5.9),(2000.0,4.3),(2000.0,4.0),(2000.0,4.2),(2000.0,4.2),(2000.0,4.2),(2000.0,5.0),(2000.0,4.6),(2000.0,4.6),(2000.0,4.3),(2000.0,4.0),(2000.0,4.3),(2000.0,4.1),(2000.0,4.3),(2000.0,4.7),(2000.0,4.0),(2000.0,4.1),(2000.0,4.3),(2000.0,4.1),(2000.0,4.8),(2000.0,4.4),(2000.0,4.1),(2000.0,6.1),(2000.0,4.2),(2000.0,4.2),(2000.0,4.6),(2000.0,4.4),(2000.0,4.6),(2000.0,4.1)]
def events13 : List (Float × Float) := [(2001.0,4.2),(2001.0,4.6),(2001.0,4.1),(2001.0,5.3),(2001.0,4.4),(2001.0,4.4),(2001.0,4.4),(2001.0,5.3),(2001.0,4.9),(2001.0,5.2),(2001.0,4.5),(2001.0,4.0),(2001.0,4.3),(2001.0,4.9),(2001.0,4.7),(2001.0,4.1),(2001.0,5.0),(2001.0,4.5),(2001.0,4.4),(2001.0,4.2),(2001.0,4.6),(2001.0,4.1),(2001.0,4.9),(2001.0,4.0),(2001.0,4.2),(2001.0,4.0),(2001.0,4.1),(2001.0,4.1),(2001.0,4.5),(2001.0,4.3),(2001.0,5.0),(2001.0,4.5),(2001.0,4.2),(2001.0,4.1),(2001.0,4.2),(2001.0,4.5),(2001.0,5.1),(2001.0,4.1),(2001.0,4.4),(2001.0,4.0),(2001.0,7.0),(2001.0,4.6),(2001.0,4.1),(2001.0,4.3),(2001.0,4.7),(2001.0,4.5),(2001.0,4.2),(2001.0,4.6),(2001.0,4.0),(2001.0,4.5),(2001.0,4.6),(2001.0,4.1),(2001.0,4.1),(2001.0,4.2),(2001.0,4.1),(2001.0,4.0),(2001.0,4.8),(2001.0,4.4),(2001.0,4.0),(2001.0,4.4),(2001.0,4.1),(2002.0,5.0),(2002.0,4.2),(2002.0,4.3),(2002.0,4.4),(2002.0,4.0),(2002.0,4.8),(2002.0,4.3),(2002.0,4.5),(2002.0,4.1),(2002.0,4.1),(2002.0,4.2),(2002.0,4.0),(2002.0,4.6),(2002.0,4.6),(2002.0,4.2),(2002.0,4.6),(2002.0,4.0),(2002.0,4.1),(2002.0,4.1),(2002.0,4.0),(2002.0,4.0),(2002.0,4.5),(2002.0,5.0),(2002.0,5.0),(2002.0,4.0),(2002.0,4.6),(2002.0,4.1),(2002.0,4.4),(2002.0,4.1),(2002.0,4.1),(2002.0,5.4),(2002.0,4.1),(2002.0,4.2),(2002.0,4.6),(2002.0,4.1),(2002.0,5.6),(2002.0,4.2),(2002.0,4.5),(2002.0,4.3)]
def events14 : List (Float × Float) := [(2002.0,4.0),(2002.0,4.5),(2002.0,4.5),(2002.0,4.0),(2002.0,4.1),(2002.0,4.6),(2002.0,5.2),(2002.0,4.2),(2002.0,4.6),(2002.0,4.2),(2002.0,4.7),(2002.0,4.1),(2002.0,4.2),(2003.0,4.2),(2003.0,4.5),(2003.0,4.2),(2003.0,5.3),(2003.0,4.7),(2003.0,4.0),(2003.0,5.0),(2003.0,4.5),(2003.0,4.2),(2003.0,4.5),(2003.0,4.2),(2003.0,4.6),(2003.0,4.2),(2003.0,5.1),(2003.0,4.0),(2003.0,4.1),(2003.0,4.2),(2003.0,4.4),(2003.0,4.0),(2003.0,4.7),(2003.0,4.5),(2003.0,4.7),(2003.0,4.8),(2003.0,4.3),(2003.0,4.1),(2003.0,4.5),(2003.0,4.3),(2003.0,4.1),(2003.0,4.0),(2003.0,4.1),(2003.0,4.3),(2003.0,4.1),(2003.0,5.3),(2003.0,5.2),(2003.0,4.2),(2003.0,5.4),(2003.0,4.4),(2003.0,4.6),(2003.0,4.2),(2003.0,4.0),(2003.0,5.0),(2003.0,4.3),(2003.0,4.1),(2003.0,4.5),(2003.0,4.4),(2003.0,4.5),(2003.0,4.2),(2003.0,4.1),(2003.0,4.2),(2003.0,4.7),(2003.0,4.0),(2003.0,4.1),(2003.0,4.4),(2003.0,4.2),(2003.0,5.1),(2003.0,4.2),(2003.0,4.1),(2003.0,4.1),(2003.0,4.7),(2003.0,6.4),(2003.0,4.9),(2003.0,5.3),(2003.0,4.5),(2003.0,4.0),(2003.0,4.3),(2003.0,4.1),(2003.0,4.1),(2003.0,4.2),(2003.0,4.0),(2003.0,5.4),(2003.0,5.5),(2003.0,4.7),(2003.0,4.8),(2003.0,4.2),(2003.0,4.3),(2003.0,4.2),(2003.0,4.0),(2004.0,4.4),(2004.0,5.4),(2004.0,4.5),(2004.0,4.1),(2004.0,5.5),(2004.0,4.5),(2004.0,4.8),(2004.0,4.4),(2004.0,4.3),(2004.0,4.3)]
def events15 : List (Float × Float) := [(2004.0,4.3),(2004.0,4.5),(2004.0,4.5),(2004.0,4.0),(2004.0,4.4),(2004.0,5.9),(2004.0,4.0),(2004.0,4.5),(2004.0,4.6),(2004.0,4.1),(2004.0,4.6),(2004.0,5.1),(2004.0,4.9),(2004.0,4.3),(2004.0,4.5),(2004.0,4.3),(2004.0,4.0),(2004.0,4.0),(2004.0,4.7),(2004.0,4.1),(2004.0,4.2),(2004.0,4.7),(2004.0,4.6),(2004.0,4.1),(2004.0,4.1),(2004.0,6.8),(2004.0,4.5),(2004.0,4.9),(2004.0,4.3),(2004.0,4.2),(2004.0,4.3),(2004.0,4.1),(2004.0,4.8),(2004.0,4.0),(2004.0,4.4),(2004.0,4.4),(2004.0,4.1),(2004.0,4.1),(2004.0,4.3),(2004.0,4.1),(2004.0,5.3),(2005.0,4.3),(2005.0,4.7),(2005.0,4.4),(2005.0,4.4),(2005.0,4.1),(2005.0,4.0),(2005.0,5.1),(2005.0,4.1),(2005.0,4.0),(2005.0,4.2),(2005.0,4.2),(2005.0,4.3),(2005.0,4.1),(2005.0,4.1),(2005.0,4.2),(2005.0,4.0),(2005.0,4.3),(2005.0,4.0),(2005.0,4.7),(2005.0,4.0),(2005.0,5.4),(2005.0,4.3),(2005.0,4.5),(2005.0,4.2),(2005.0,5.8),(2005.0,4.3),(2005.0,4.5),(2005.0,4.5),(2005.0,4.3),(2005.0,4.1),(2005.0,4.0),(2005.0,4.7),(2005.0,4.1),(2005.0,4.1),(2005.0,4.1),(2005.0,4.2),(2005.0,5.8),(2005.0,4.1),(2005.0,4.2),(2005.0,4.8),(2005.0,4.3),(2005.0,5.4),(2005.0,5.7),(2005.0,4.3),(2005.0,4.1),(2005.0,4.1),(2005.0,4.1),(2005.0,4.8),(2005.0,6.4),(2006.0,4.3),(2006.0,4.3),(2006.0,4.2),(2006.0,4.0),(2006.0,4.0),(2006.0,4.5),(2006.0,4.6),(2006.0,4.4),(2006.0,4.2),(2006.0,5.4)]
def events16 : List (Float × Float) := [(2006.0,5.1),(2006.0,5.0),(2006.0,4.1),(2006.0,4.1),(2006.0,4.1),(2006.0,5.0),(2006.0,4.1),(2006.0,4.7),(2006.0,4.1),(2006.0,4.2),(2006.0,4.2),(2006.0,5.3),(2006.0,4.0),(2006.0,4.2),(2006.0,4.4),(2006.0,5.0),(2006.0,4.8),(2006.0,4.7),(2006.0,4.5),(2006.0,4.3),(2006.0,4.8),(2006.0,4.0),(2006.0,4.0),(2006.0,4.1),(2006.0,4.2),(2006.0,4.0),(2006.0,4.1),(2006.0,4.3),(2006.0,5.2),(2006.0,4.5),(2006.0,5.0),(2006.0,4.4),(2006.0,4.2),(2007.0,4.6),(2007.0,4.0),(2007.0,4.5),(2007.0,5.8),(2007.0,4.2),(2007.0,4.6),(2007.0,4.9),(2007.0,4.2),(2007.0,4.1),(2007.0,4.2),(2007.0,4.6),(2007.0,5.3),(2007.0,4.3),(2007.0,4.2),(2007.0,4.8),(2007.0,4.0),(2007.0,5.3),(2007.0,4.2),(2007.0,4.2),(2007.0,4.1),(2007.0,5.5),(2007.0,4.5),(2007.0,4.4),(2007.0,5.5),(2007.0,4.9),(2007.0,4.1),(2007.0,4.6),(2007.0,4.2),(2007.0,4.7),(2007.0,4.6),(2007.0,4.6),(2007.0,4.6),(2007.0,4.1),(2007.0,4.5),(2007.0,4.8),(2007.0,4.2),(2007.0,4.4),(2007.0,4.5),(2007.0,4.4),(2007.0,4.5),(2007.0,4.5),(2007.0,4.3),(2007.0,4.1),(2007.0,4.4),(2007.0,4.9),(2007.0,4.1),(2007.0,4.2),(2007.0,4.1),(2007.0,4.4),(2007.0,4.5),(2007.0,4.1),(2007.0,4.1),(2007.0,4.0),(2007.0,4.1),(2007.0,4.1),(2008.0,4.1),(2008.0,4.4),(2008.0,4.4),(2008.0,4.7),(2008.0,4.0),(2008.0,4.4),(2008.0,4.7),(2008.0,4.9),(2008.0,4.2),(2008.0,4.3),(2008.0,4.0),(2008.0,4.8)]
def events17 : List (Float × Float) := [(2008.0,4.8),(2008.0,4.8),(2008.0,4.2),(2008.0,4.3),(2008.0,4.2),(2008.0,4.1),(2008.0,4.1),(2008.0,4.5),(2008.0,4.0),(2008.0,4.1),(2008.0,4.0),(2008.0,4.6),(2008.0,4.0),(2008.0,4.4),(2008.0,4.9),(2008.0,4.1),(2008.0,4.0),(2008.0,4.0),(2008.0,5.5),(2008.0,4.9),(2008.0,4.1),(2008.0,4.4),(2008.0,4.7),(2008.0,4.0),(2008.0,4.2),(2008.0,4.1),(2008.0,4.3),(2008.0,4.3),(2008.0,4.4),(2008.0,5.0),(2008.0,4.4),(2008.0,4.8),(2008.0,4.1),(2008.0,4.8),(2008.0,4.4),(2008.0,4.4),(2008.0,4.4),(2008.0,4.2),(2008.0,4.0),(2008.0,4.3),(2008.0,5.1),(2008.0,4.5),(2008.0,4.8),(2008.0,4.7),(2008.0,5.0),(2008.0,4.5),(2008.0,4.3),(2008.0,4.1),(2008.0,4.1),(2009.0,4.2),(2009.0,4.8),(2009.0,4.6),(2009.0,4.9),(2009.0,4.0),(2009.0,4.5),(2009.0,4.8),(2009.0,5.4),(2009.0,4.5),(2009.0,4.2),(2009.0,4.1),(2009.0,4.5),(2009.0,4.8),(2009.0,4.1),(2009.0,4.7),(2009.0,4.3),(2009.0,4.3),(2009.0,4.1),(2009.0,4.0),(2009.0,4.6),(2009.0,4.3),(2009.0,4.3),(2009.0,4.2),(2009.0,4.0),(2009.0,4.3),(2009.0,4.3),(2009.0,4.6),(2009.0,4.2),(2009.0,4.7),(2009.0,4.3),(2009.0,4.8),(2009.0,4.1),(2009.0,4.7),(2009.0,4.3),(2009.0,4.1),(2009.0,4.1),(2009.0,4.3),(2009.0,4.1),(2009.0,4.1),(2009.0,5.3),(2009.0,4.5),(2009.0,4.2),(2009.0,4.6),(2009.0,4.2),(2009.0,4.0),(2009.0,4.2),(2009.0,4.1),(2009.0,4.8),(2009.0,4.4),(2009.0,4.8),(2009.0,5.2)]
def events18 : List (Float × Float) := [(2009.0,4.1)]
def events : List (Float × Float) := events0 ++ events1 ++ events2 ++ events3 ++ events4 ++ events5 ++ events6 ++ events7 ++ events8 ++ events9 ++ events10 ++ events11 ++ events12 ++ events13 ++ events14 ++ events15 ++ events16 ++ events17 ++ events18

/-- The default completeness table: first year and smallest magnitude of the catalogue. -/
def tab : List (Float × Float) := [(1910.0,4.0)]

/-- Equality to five decimals. -/
def near (xs ys : List Float) : Bool := xs.length == ys.length && (List.zipWith (fun x y => decide (Float.abs (x - y) < 1e-5)) xs ys).all id

/-- Values of a recurrence analysis. -/
def values (r : Except PyErr (Option (Recurrence.GR Float))) : List Float :=
  match r with
  | .ok (some r) => [r.b, r.sigb, r.a, r.siga]
  | _ => []

#guard near (values (Recurrence.recurrenceAnalysis zone tab 0.5 "Weichert" 1.1 0.3 100)) [0.569790, 0.041210, 132.051268, 7.701386]
#guard near (values (Recurrence.recurrenceAnalysis zone tab 0.5 "MLE" 1.1 0.3 100)) [0.595256, 0.024816, 158.109066, 49.997286]

/-- Table expected by tests/qa_tests/test_completeness.py. -/
def steppTable : List (Float × Float) := [(1994.0,4.0),(1994.0,4.1),(1994.0,4.2),(1994.0,4.3),(1994.0,4.4),(1964.0,4.5),(1964.0,4.6),(1964.0,4.7),(1964.0,4.8),(1964.0,4.9),(1964.0,5.0),(1964.0,5.1),(1964.0,5.2),(1964.0,5.3),(1964.0,5.4),(1919.0,5.5),(1919.0,5.6),(1919.0,5.7),(1919.0,5.8),(1919.0,5.9),(1919.0,6.0),(1919.0,6.1),(1919.0,6.2),(1919.0,6.3),(1919.0,6.4),(1919.0,6.5),(1919.0,6.6),(1919.0,6.7),(1919.0,6.8),(1919.0,6.9),(1919.0,7.0),(1919.0,7.1),(1919.0,7.2),(1919.0,7.3)]

#guard match Completeness.stepp events 0.1 5 0.2 true with
  | .ok t => near (t.map Prod.fst) (steppTable.map Prod.fst) && near (t.map Prod.snd) (steppTable.map Prod.snd)
  | .error _ => false

end Verif.Sanity.Recurrence
